import Mathlib.Analysis.SpecialFunctions.Trigonometric.Basic

/-!
# SPH kernels (`src/shammath/include/shammath/sphkernels.hpp`)

The eighteen piecewise polynomial kernels of the code and the wrapper `SPHKernelGen`.  Every
    function
is transcribed statement by statement: a C++ local that is assigned again becomes a new `let` of
    the
same name.  Simplification: the floating point type `Tscal` is the field of real numbers, so
    decimal
constants are exact quotients and `shambase::constants::pi` is `Real.pi`;
    `sham::pow_constexpr<n>(x)`
is `x ^ n`.  The truncated Gaussians `TGauss3` and `TGauss5` (lines 1472-1604) are not modelled.
-/

namespace Shamrock.Kern

/-- The static members of a kernel class used by `SPHKernelGen` (sphkernels.hpp:2285-2385):
radius of the support, default number of smoothing lengths, normalisations, the shape `f`, its
    derivatives, the softened potential and its
derivative. -/
structure KernelDef where
  Rkern : ℝ
  hfactd : ℝ
  norm_1d : ℝ
  norm_2d : ℝ
  norm_3d : ℝ
  f : ℝ → ℝ
  df : ℝ → ℝ
  ddf : ℝ → ℝ
  phi_tilde_3d : ℝ → ℝ
  phi_tilde_3d_prime : ℝ → ℝ

namespace M4

/-- sphkernels.hpp:31. -/
noncomputable def Rkern : ℝ := 2

/-- sphkernels.hpp:33. -/
noncomputable def hfactd : ℝ := (12 / 10)

/-- sphkernels.hpp:36. -/
noncomputable def norm_1d : ℝ := 2 / 3

/-- sphkernels.hpp:38. -/
noncomputable def norm_2d : ℝ := 10 / (7 * Real.pi)

/-- sphkernels.hpp:40. -/
noncomputable def norm_3d : ℝ := 1 / Real.pi

/-- sphkernels.hpp:42-60. -/
noncomputable def f (q : ℝ) : ℝ :=
  let t1 : ℝ := 2 - q
  let t2 : ℝ := 1 - q
  let t1 : ℝ := t1 * t1 * t1
  let t2 : ℝ := t2 * t2 * t2
  let div1_4 : ℝ := (1 / 4)
  let t1 : ℝ := t1 * (div1_4)
  let t2 : ℝ := t2 * (-1)
  if q < 1 then
    t1 + t2
  else if q < 2 then
    t1
  else
    0

/-- sphkernels.hpp:62-73. -/
noncomputable def df (q : ℝ) : ℝ :=
  let div9_4 : ℝ := (9 / 4)
  let div3_4 : ℝ := (3 / 4)
  if q < 1 then
    -3 * q + div9_4 * q * q
  else if q < 2 then
    -3 + 3 * q - div3_4 * q * q
  else
    0

/-- sphkernels.hpp:75-82. -/
noncomputable def ddf (q : ℝ) : ℝ :=
  if q < 1 then
    (9 / 2) * q - 3
  else if q < 2 then
    3 - (3 / 2) * q
  else
    0

/-- sphkernels.hpp:84-98. -/
noncomputable def phi_tilde_3d (q : ℝ) : ℝ :=
  let t1 : ℝ := (q) ^ 2
  let t2 : ℝ := (q) ^ 3
  let t3 : ℝ := (q) ^ 4
  let t4 : ℝ := (q) ^ 5
  let t5 : ℝ := (q) ^ 6
  if q < 1 then
    (1 / 30) * Real.pi * (t1 * (3 * t2 - 9 * t1 + 20) - 42)
  else if q < 2 then
    (1 / 30) * Real.pi * (-t5 + 9 * t4 - 30 * t3 + 40 * t2 - 48 * q + 2) / q
  else
    -Real.pi / q

/-- sphkernels.hpp:100-116. -/
noncomputable def phi_tilde_3d_prime (q : ℝ) : ℝ :=
  let t1 : ℝ := (q) ^ 2
  let t2 : ℝ := (q) ^ 3
  let t3 : ℝ := (q) ^ 4
  let t4 : ℝ := (q) ^ 5
  let t5 : ℝ := (q) ^ 6
  if q < 1 then
    (1 / 30) * Real.pi * (t1 * (9 * t1 - 18 * q) + 2 * q * (3 * t2 - 9 * t1 + 20))
  else if q < 2 then
    (1 / 30) * Real.pi * (-6 * t4 + 45 * t3 - 120 * t2 + 120 * t1 - 48) / q - (1 / 30) * Real.pi
        * (-t5 + 9 * t4 - 30 * t3 + 40 * t2 - 48 * q + 2) / t1
  else
    Real.pi / t1

/-- sphkernels.hpp:28-117: class `KernelDefM4`. -/
noncomputable def kernel : KernelDef :=
  { Rkern := Rkern, hfactd := hfactd, norm_1d := norm_1d, norm_2d := norm_2d, norm_3d := norm_3d,
      f := f,
    df := df, ddf := ddf, phi_tilde_3d := phi_tilde_3d, phi_tilde_3d_prime := phi_tilde_3d_prime }

end M4

namespace M5

/-- sphkernels.hpp:122. -/
noncomputable def Rkern : ℝ := 5 / 2

/-- sphkernels.hpp:124. -/
noncomputable def hfactd : ℝ := (12 / 10)

/-- sphkernels.hpp:127. -/
noncomputable def norm_1d : ℝ := 1 / 24

/-- sphkernels.hpp:129. -/
noncomputable def norm_2d : ℝ := 96 / (1199 * Real.pi)

/-- sphkernels.hpp:131. -/
noncomputable def norm_3d : ℝ := 1 / (20 * Real.pi)

/-- sphkernels.hpp:133-163. -/
noncomputable def f (q : ℝ) : ℝ :=
  let div5_2 : ℝ := (5 / 2)
  let div3_2 : ℝ := (3 / 2)
  let div1_2 : ℝ := (1 / 2)
  let t1 : ℝ := div5_2 - q
  let t2 : ℝ := div3_2 - q
  let t3 : ℝ := div1_2 - q
  let t1_2 : ℝ := t1 * t1
  let t2_2 : ℝ := t2 * t2
  let t3_2 : ℝ := t3 * t3
  let t1 : ℝ := t1_2 * t1_2
  let t2 : ℝ := t2_2 * t2_2
  let t3 : ℝ := t3_2 * t3_2
  let t1 : ℝ := t1 * (1)
  let t2 : ℝ := t2 * (-5)
  let t3 : ℝ := t3 * (10)
  if q < div1_2 then
    t1 + t2 + t3
  else if q < div3_2 then
    t1 + t2
  else if q < div5_2 then
    t1
  else
    0

/-- sphkernels.hpp:165-195. -/
noncomputable def df (q : ℝ) : ℝ :=
  let div5_2 : ℝ := (5 / 2)
  let div3_2 : ℝ := (3 / 2)
  let div1_2 : ℝ := (1 / 2)
  let t1 : ℝ := div5_2 - q
  let t2 : ℝ := div3_2 - q
  let t3 : ℝ := div1_2 - q
  let t1_2 : ℝ := t1 * t1
  let t2_2 : ℝ := t2 * t2
  let t3_2 : ℝ := t3 * t3
  let t1 : ℝ := t1 * t1_2
  let t2 : ℝ := t2 * t2_2
  let t3 : ℝ := t3 * t3_2
  let t1 : ℝ := t1 * ((1) * (-4))
  let t2 : ℝ := t2 * ((-5) * (-4))
  let t3 : ℝ := t3 * ((10) * (-4))
  if q < div1_2 then
    t1 + t2 + t3
  else if q < div3_2 then
    t1 + t2
  else if q < div5_2 then
    t1
  else
    0

/-- sphkernels.hpp:197-209. -/
noncomputable def ddf (q : ℝ) : ℝ :=
  let t1 : ℝ := (1 / 2 - q) ^ 2
  let t2 : ℝ := (3 / 2 - q) ^ 2
  let t3 : ℝ := (5 / 2 - q) ^ 2
  if q < 1 / 2 then
    120 * t1 - 60 * t2 + 12 * t3
  else if q < 3 / 2 then
    -60 * t2 + 12 * t3
  else if q < 5 / 2 then
    12 * t3
  else
    0

/-- sphkernels.hpp:211-232. -/
noncomputable def phi_tilde_3d (q : ℝ) : ℝ :=
  let t1 : ℝ := (q) ^ 2
  let t2 : ℝ := (q) ^ 3
  let t3 : ℝ := (q) ^ 4
  let t4 : ℝ := (q) ^ 5
  let t5 : ℝ := (q) ^ 6
  let t6 : ℝ := (q) ^ 7
  if q < 1 / 2 then
    (1 / 336) * Real.pi * (192 * t5 - 1008 * t3 + 3220 * t1 - 8393)
  else if q < 3 / 2 then
    (1 / 336) * Real.pi * (-128 * t6 + 896 * t5 - 2016 * t4 + 560 * t3 + 3080 * t2 - 8386 * q -
        1) / q
  else if q < 5 / 2 then
    (1 / 672) * Real.pi * (64 * t6 - 896 * t5 + 5040 * t4 - 14000 * t3 + 17500 * t2 - 21875 * q +
        2185) / q
  else
    -20 * Real.pi / q

/-- sphkernels.hpp:234-261. -/
noncomputable def phi_tilde_3d_prime (q : ℝ) : ℝ :=
  let t1 : ℝ := (q) ^ 2
  let t2 : ℝ := (q) ^ 3
  let t3 : ℝ := (q) ^ 4
  let t4 : ℝ := (q) ^ 5
  let t5 : ℝ := (q) ^ 6
  let t6 : ℝ := (q) ^ 7
  if q < 1 / 2 then
    (1 / 336) * Real.pi * (1152 * t4 - 4032 * t2 + 6440 * q)
  else if q < 3 / 2 then
    (1 / 336) * Real.pi * (-896 * t5 + 5376 * t4 - 10080 * t3 + 2240 * t2 + 9240 * t1 - 8386) / q
        - (1 / 336) * Real.pi * (-128 * t6 + 896 * t5 - 2016 * t4 + 560 * t3 + 3080 * t2 - 8386 *
        q - 1) / t1
  else if q < 5 / 2 then
    (1 / 672) * Real.pi * (448 * t5 - 5376 * t4 + 25200 * t3 - 56000 * t2 + 52500 * t1 - 21875) /
        q - (1 / 672) * Real.pi * (64 * t6 - 896 * t5 + 5040 * t4 - 14000 * t3 + 17500 * t2 -
        21875 * q + 2185) / t1
  else
    20 * Real.pi / t1

/-- sphkernels.hpp:119-262: class `KernelDefM5`. -/
noncomputable def kernel : KernelDef :=
  { Rkern := Rkern, hfactd := hfactd, norm_1d := norm_1d, norm_2d := norm_2d, norm_3d := norm_3d,
      f := f,
    df := df, ddf := ddf, phi_tilde_3d := phi_tilde_3d, phi_tilde_3d_prime := phi_tilde_3d_prime }

end M5

namespace M6

/-- sphkernels.hpp:267. -/
noncomputable def Rkern : ℝ := 3

/-- sphkernels.hpp:269. -/
noncomputable def hfactd : ℝ := 1

/-- sphkernels.hpp:272. -/
noncomputable def norm_1d : ℝ := 1 / 120

/-- sphkernels.hpp:274. -/
noncomputable def norm_2d : ℝ := 7 / (478 * Real.pi)

/-- sphkernels.hpp:276. -/
noncomputable def norm_3d : ℝ := 1 / (120 * Real.pi)

/-- sphkernels.hpp:278-304. -/
noncomputable def f (q : ℝ) : ℝ :=
  let t1 : ℝ := 3 - q
  let t2 : ℝ := 2 - q
  let t3 : ℝ := 1 - q
  let t1_2 : ℝ := t1 * t1
  let t2_2 : ℝ := t2 * t2
  let t3_2 : ℝ := t3 * t3
  let t1 : ℝ := t1 * t1_2 * t1_2
  let t2 : ℝ := t2 * t2_2 * t2_2
  let t3 : ℝ := t3 * t3_2 * t3_2
  let t1 : ℝ := t1 * (1)
  let t2 : ℝ := t2 * (-6)
  let t3 : ℝ := t3 * (15)
  if q < 1 then
    t1 + t2 + t3
  else if q < 2 then
    t1 + t2
  else if q < 3 then
    t1
  else
    0

/-- sphkernels.hpp:306-332. -/
noncomputable def df (q : ℝ) : ℝ :=
  let t1 : ℝ := 3 - q
  let t2 : ℝ := 2 - q
  let t3 : ℝ := 1 - q
  let t1_2 : ℝ := t1 * t1
  let t2_2 : ℝ := t2 * t2
  let t3_2 : ℝ := t3 * t3
  let t1 : ℝ := t1_2 * t1_2
  let t2 : ℝ := t2_2 * t2_2
  let t3 : ℝ := t3_2 * t3_2
  let t1 : ℝ := t1 * ((1) * (-5))
  let t2 : ℝ := t2 * ((-6) * (-5))
  let t3 : ℝ := t3 * ((15) * (-5))
  if q < 1 then
    t1 + t2 + t3
  else if q < 2 then
    t1 + t2
  else if q < 3 then
    t1
  else
    0

/-- sphkernels.hpp:334-346. -/
noncomputable def ddf (q : ℝ) : ℝ :=
  let t1 : ℝ := (1 - q) ^ 3
  let t2 : ℝ := (2 - q) ^ 3
  let t3 : ℝ := (3 - q) ^ 3
  if q < 1 then
    300 * t1 - 120 * t2 + 20 * t3
  else if q < 2 then
    -120 * t2 + 20 * t3
  else if q < 3 then
    20 * t3
  else
    0

/-- sphkernels.hpp:348-371. -/
noncomputable def phi_tilde_3d (q : ℝ) : ℝ :=
  let t1 : ℝ := (q) ^ 2
  let t2 : ℝ := (q) ^ 3
  let t3 : ℝ := (q) ^ 4
  let t4 : ℝ := (q) ^ 5
  let t5 : ℝ := (q) ^ 6
  let t6 : ℝ := (q) ^ 7
  let t7 : ℝ := (q) ^ 8
  if q < 1 then
    (1 / 7) * Real.pi * (-5 * t6 + 20 * t5 - 84 * t3 + 308 * t1 - 956)
  else if q < 2 then
    (1 / 14) * Real.pi * (5 * t7 - 60 * t6 + 280 * t5 - 588 * t4 + 350 * t3 + 476 * t2 - 1892 * q
        - 5) / q
  else if q < 3 then
    (1 / 14) * Real.pi * (-t7 + 20 * t6 - 168 * t5 + 756 * t4 - 1890 * t3 + 2268 * t2 - 2916 * q
        + 507) / q
  else
    -120 * Real.pi / q

/-- sphkernels.hpp:373-404. -/
noncomputable def phi_tilde_3d_prime (q : ℝ) : ℝ :=
  let t1 : ℝ := (q) ^ 2
  let t2 : ℝ := (q) ^ 3
  let t3 : ℝ := (q) ^ 4
  let t4 : ℝ := (q) ^ 5
  let t5 : ℝ := (q) ^ 6
  let t6 : ℝ := (q) ^ 7
  let t7 : ℝ := (q) ^ 8
  if q < 1 then
    (1 / 7) * Real.pi * (-35 * t5 + 120 * t4 - 336 * t2 + 616 * q)
  else if q < 2 then
    (1 / 14) * Real.pi * (40 * t6 - 420 * t5 + 1680 * t4 - 2940 * t3 + 1400 * t2 + 1428 * t1 -
        1892) / q - (1 / 14) * Real.pi * (5 * t7 - 60 * t6 + 280 * t5 - 588 * t4 + 350 * t3 + 476
        * t2 - 1892 * q - 5) / t1
  else if q < 3 then
    (1 / 14) * Real.pi * (-8 * t6 + 140 * t5 - 1008 * t4 + 3780 * t3 - 7560 * t2 + 6804 * t1 -
        2916) / q - (1 / 14) * Real.pi * (-t7 + 20 * t6 - 168 * t5 + 756 * t4 - 1890 * t3 + 2268
        * t2 - 2916 * q + 507) / t1
  else
    120 * Real.pi / t1

/-- sphkernels.hpp:264-405: class `KernelDefM6`. -/
noncomputable def kernel : KernelDef :=
  { Rkern := Rkern, hfactd := hfactd, norm_1d := norm_1d, norm_2d := norm_2d, norm_3d := norm_3d,
      f := f,
    df := df, ddf := ddf, phi_tilde_3d := phi_tilde_3d, phi_tilde_3d_prime := phi_tilde_3d_prime }

end M6

namespace M7

/-- sphkernels.hpp:410. -/
noncomputable def Rkern : ℝ := (35 / 10)

/-- sphkernels.hpp:412. -/
noncomputable def hfactd : ℝ := 1

/-- sphkernels.hpp:415. -/
noncomputable def norm_1d : ℝ := 1 / 720

/-- sphkernels.hpp:417. -/
noncomputable def norm_2d : ℝ := 256 / (113149 * Real.pi)

/-- sphkernels.hpp:419. -/
noncomputable def norm_3d : ℝ := 6 / (5040 * Real.pi)

/-- sphkernels.hpp:421-454. -/
noncomputable def f (q : ℝ) : ℝ :=
  let div7_2 : ℝ := (7 / 2)
  let div5_2 : ℝ := (5 / 2)
  let div3_2 : ℝ := (3 / 2)
  let div1_2 : ℝ := (1 / 2)
  let t1 : ℝ := div7_2 - q
  let t2 : ℝ := div5_2 - q
  let t3 : ℝ := div3_2 - q
  let t4 : ℝ := div1_2 - q
  let t1 : ℝ := (t1) ^ 6
  let t2 : ℝ := (t2) ^ 6
  let t3 : ℝ := (t3) ^ 6
  let t4 : ℝ := (t4) ^ 6
  let t1 : ℝ := t1 * (1)
  let t2 : ℝ := t2 * (-7)
  let t3 : ℝ := t3 * (21)
  let t4 : ℝ := t4 * (-35)
  if q < div1_2 then
    t1 + t2 + t3 + t4
  else if q < div3_2 then
    t1 + t2 + t3
  else if q < div5_2 then
    t1 + t2
  else if q < div7_2 then
    t1
  else
    0

/-- sphkernels.hpp:456-489. -/
noncomputable def df (q : ℝ) : ℝ :=
  let div7_2 : ℝ := (7 / 2)
  let div5_2 : ℝ := (5 / 2)
  let div3_2 : ℝ := (3 / 2)
  let div1_2 : ℝ := (1 / 2)
  let t1 : ℝ := div7_2 - q
  let t2 : ℝ := div5_2 - q
  let t3 : ℝ := div3_2 - q
  let t4 : ℝ := div1_2 - q
  let t1 : ℝ := (t1) ^ 5
  let t2 : ℝ := (t2) ^ 5
  let t3 : ℝ := (t3) ^ 5
  let t4 : ℝ := (t4) ^ 5
  let t1 : ℝ := t1 * ((-6) * (1))
  let t2 : ℝ := t2 * ((-6) * (-7))
  let t3 : ℝ := t3 * ((-6) * (21))
  let t4 : ℝ := t4 * ((-6) * (-35))
  if q < div1_2 then
    t1 + t2 + t3 + t4
  else if q < div3_2 then
    t1 + t2 + t3
  else if q < div5_2 then
    t1 + t2
  else if q < div7_2 then
    t1
  else
    0

/-- sphkernels.hpp:491-506. -/
noncomputable def ddf (q : ℝ) : ℝ :=
  let t1 : ℝ := (1 / 2 - q) ^ 4
  let t2 : ℝ := (3 / 2 - q) ^ 4
  let t3 : ℝ := (5 / 2 - q) ^ 4
  let t4 : ℝ := (7 / 2 - q) ^ 4
  if q < 1 / 2 then
    -1050 * t1 + 630 * t2 - 210 * t3 + 30 * t4
  else if q < 3 / 2 then
    630 * t2 - 210 * t3 + 30 * t4
  else if q < 5 / 2 then
    -210 * t3 + 30 * t4
  else if q < 7 / 2 then
    30 * t4
  else
    0

/-- sphkernels.hpp:508-537. -/
noncomputable def phi_tilde_3d (q : ℝ) : ℝ :=
  let t1 : ℝ := (q) ^ 2
  let t2 : ℝ := (q) ^ 3
  let t3 : ℝ := (q) ^ 4
  let t4 : ℝ := (q) ^ 5
  let t5 : ℝ := (q) ^ 6
  let t6 : ℝ := (q) ^ 7
  let t7 : ℝ := (q) ^ 8
  let t8 : ℝ := (q) ^ 9
  if q < 1 / 2 then
    (1 / 1152) * Real.pi * (-1280 * t7 + 11520 * t5 - 66528 * t3 + 282576 * t1 - 1018341)
  else if q < 3 / 2 then
    (1 / 4608) * Real.pi * (3840 * t8 - 34560 * t7 + 103680 * t6 - 53760 * t5 - 235872 * t4 -
        10080 * t3 + 1131984 * t2 - 4073409 * q + 5) / q
  else if q < 5 / 2 then
    (1 / 2304) * Real.pi * (-768 * t8 + 13824 * t7 - 103680 * t6 + 408576 * t5 - 852768 * t4 +
        729792 * t3 + 198576 * t2 - 1948131 * q - 29522) / q
  else if q < 7 / 2 then
    (1 / 4608) * Real.pi * (256 * t8 - 6912 * t7 + 80640 * t6 - 526848 * t5 + 2074464 * t4 -
        4840416 * t3 + 5647152 * t2 - 7411887 * q + 1894081) / q
  else
    -840 * Real.pi / q

/-- sphkernels.hpp:539-580. -/
noncomputable def phi_tilde_3d_prime (q : ℝ) : ℝ :=
  let t1 : ℝ := (q) ^ 2
  let t2 : ℝ := (q) ^ 3
  let t3 : ℝ := (q) ^ 4
  let t4 : ℝ := (q) ^ 5
  let t5 : ℝ := (q) ^ 6
  let t6 : ℝ := (q) ^ 7
  let t7 : ℝ := (q) ^ 8
  let t8 : ℝ := (q) ^ 9
  if q < 1 / 2 then
    (1 / 1152) * Real.pi * (-10240 * t6 + 69120 * t4 - 266112 * t2 + 565152 * q)
  else if q < 3 / 2 then
    (1 / 4608) * Real.pi * (34560 * t7 - 276480 * t6 + 725760 * t5 - 322560 * t4 - 1179360 * t3 -
        40320 * t2 + 3395952 * t1 - 4073409) / q - (1 / 4608) * Real.pi * (3840 * t8 - 34560 * t7
        + 103680 * t6 - 53760 * t5 - 235872 * t4 - 10080 * t3 + 1131984 * t2 - 4073409 * q + 5) /
        t1
  else if q < 5 / 2 then
    (1 / 2304) * Real.pi * (-6912 * t7 + 110592 * t6 - 725760 * t5 + 2451456 * t4 - 4263840 * t3
        + 2919168 * t2 + 595728 * t1 - 1948131) / q - (1 / 2304) * Real.pi * (-768 * t8 + 13824 *
        t7 - 103680 * t6 + 408576 * t5 - 852768 * t4 + 729792 * t3 + 198576 * t2 - 1948131 * q -
        29522) / t1
  else if q < 7 / 2 then
    (1 / 4608) * Real.pi * (2304 * t7 - 55296 * t6 + 564480 * t5 - 3161088 * t4 + 10372320 * t3 -
        19361664 * t2 + 16941456 * t1 - 7411887) / q - (1 / 4608) * Real.pi * (256 * t8 - 6912 *
        t7 + 80640 * t6 - 526848 * t5 + 2074464 * t4 - 4840416 * t3 + 5647152 * t2 - 7411887 * q
        + 1894081) / t1
  else
    840 * Real.pi / t1

/-- sphkernels.hpp:407-581: class `KernelDefM7`. -/
noncomputable def kernel : KernelDef :=
  { Rkern := Rkern, hfactd := hfactd, norm_1d := norm_1d, norm_2d := norm_2d, norm_3d := norm_3d,
      f := f,
    df := df, ddf := ddf, phi_tilde_3d := phi_tilde_3d, phi_tilde_3d_prime := phi_tilde_3d_prime }

end M7

namespace M8

/-- sphkernels.hpp:586. -/
noncomputable def Rkern : ℝ := 4

/-- sphkernels.hpp:588. -/
noncomputable def hfactd : ℝ := 1

/-- sphkernels.hpp:591. -/
noncomputable def norm_1d : ℝ := 1 / 5040

/-- sphkernels.hpp:593. -/
noncomputable def norm_2d : ℝ := (9 / 29740) / Real.pi

/-- sphkernels.hpp:595. -/
noncomputable def norm_3d : ℝ := (1 / 6720) / Real.pi

/-- sphkernels.hpp:597-624. -/
noncomputable def f (q : ℝ) : ℝ :=
  let t1 : ℝ := 4 - q
  let t2 : ℝ := 3 - q
  let t3 : ℝ := 2 - q
  let t4 : ℝ := 1 - q
  let t1 : ℝ := (t1) ^ 7
  let t2 : ℝ := (t2) ^ 7
  let t3 : ℝ := (t3) ^ 7
  let t4 : ℝ := (t4) ^ 7
  let t1 : ℝ := t1 * (1)
  let t2 : ℝ := t2 * (-8)
  let t3 : ℝ := t3 * (28)
  let t4 : ℝ := t4 * (-56)
  if q < 1 then
    t1 + t2 + t3 + t4
  else if q < 2 then
    t1 + t2 + t3
  else if q < 3 then
    t1 + t2
  else if q < 4 then
    t1
  else
    0

/-- sphkernels.hpp:626-653. -/
noncomputable def df (q : ℝ) : ℝ :=
  let t1 : ℝ := 4 - q
  let t2 : ℝ := 3 - q
  let t3 : ℝ := 2 - q
  let t4 : ℝ := 1 - q
  let t1 : ℝ := (t1) ^ 6
  let t2 : ℝ := (t2) ^ 6
  let t3 : ℝ := (t3) ^ 6
  let t4 : ℝ := (t4) ^ 6
  let t1 : ℝ := t1 * ((-7) * (1))
  let t2 : ℝ := t2 * ((-7) * (-8))
  let t3 : ℝ := t3 * ((-7) * (28))
  let t4 : ℝ := t4 * ((-7) * (-56))
  if q < 1 then
    t1 + t2 + t3 + t4
  else if q < 2 then
    t1 + t2 + t3
  else if q < 3 then
    t1 + t2
  else if q < 4 then
    t1
  else
    0

/-- sphkernels.hpp:655-670. -/
noncomputable def ddf (q : ℝ) : ℝ :=
  let t1 : ℝ := (1 - q) ^ 5
  let t2 : ℝ := (2 - q) ^ 5
  let t3 : ℝ := (3 - q) ^ 5
  let t4 : ℝ := (4 - q) ^ 5
  if q < 1 then
    -2352 * t1 + 1176 * t2 - 336 * t3 + 42 * t4
  else if q < 2 then
    1176 * t2 - 336 * t3 + 42 * t4
  else if q < 3 then
    -336 * t3 + 42 * t4
  else if q < 4 then
    42 * t4
  else
    0

/-- sphkernels.hpp:672-702. -/
noncomputable def phi_tilde_3d (q : ℝ) : ℝ :=
  let t1 : ℝ := (q) ^ 10
  let t2 : ℝ := (q) ^ 2
  let t3 : ℝ := (q) ^ 3
  let t4 : ℝ := (q) ^ 4
  let t5 : ℝ := (q) ^ 5
  let t6 : ℝ := (q) ^ 6
  let t7 : ℝ := (q) ^ 7
  let t8 : ℝ := (q) ^ 8
  let t9 : ℝ := (q) ^ 9
  if q < 1 then
    (2 / 9) * Real.pi * (t2 * (7 * t7 - 35 * t6 + 240 * t4 - 1512 * t2 + 7248) - 29740)
  else if q < 2 then
    (2 / 45) * Real.pi * (-21 * t1 + 315 * t9 - 1890 * t8 + 5400 * t7 - 5880 * t6 - 2268 * t5 -
        2940 * t4 + 37080 * t3 - 148770 * q + 14) / q
  else if q < 3 then
    (2 / 45) * Real.pi * (7 * t1 - 175 * t9 + 1890 * t8 - 11400 * t7 + 41160 * t6 - 86940 * t5 +
        91140 * t4 - 16680 * t3 - 130850 * q - 7154) / q
  else if q < 4 then
    (2 / 45) * Real.pi * (-t1 + 35 * t9 - 540 * t8 + 4800 * t7 - 26880 * t6 + 96768 * t5 - 215040
        * t4 + 245760 * t3 - 327680 * q + 110944) / q
  else
    -6720 * Real.pi / q

/-- sphkernels.hpp:704-747. -/
noncomputable def phi_tilde_3d_prime (q : ℝ) : ℝ :=
  let t1 : ℝ := (q) ^ 10
  let t2 : ℝ := (q) ^ 2
  let t3 : ℝ := (q) ^ 3
  let t4 : ℝ := (q) ^ 4
  let t5 : ℝ := (q) ^ 5
  let t6 : ℝ := (q) ^ 6
  let t7 : ℝ := (q) ^ 7
  let t8 : ℝ := (q) ^ 8
  let t9 : ℝ := (q) ^ 9
  if q < 1 then
    (2 / 9) * Real.pi * (t2 * (49 * t6 - 210 * t5 + 960 * t3 - 3024 * q) + 2 * q * (7 * t7 - 35 *
        t6 + 240 * t4 - 1512 * t2 + 7248))
  else if q < 2 then
    (2 / 45) * Real.pi * (-210 * t9 + 2835 * t8 - 15120 * t7 + 37800 * t6 - 35280 * t5 - 11340 *
        t4 - 11760 * t3 + 111240 * t2 - 148770) / q - (2 / 45) * Real.pi * (-21 * t1 + 315 * t9 -
        1890 * t8 + 5400 * t7 - 5880 * t6 - 2268 * t5 - 2940 * t4 + 37080 * t3 - 148770 * q + 14)
        / t2
  else if q < 3 then
    (2 / 45) * Real.pi * (70 * t9 - 1575 * t8 + 15120 * t7 - 79800 * t6 + 246960 * t5 - 434700 *
        t4 + 364560 * t3 - 50040 * t2 - 130850) / q - (2 / 45) * Real.pi * (7 * t1 - 175 * t9 +
        1890 * t8 - 11400 * t7 + 41160 * t6 - 86940 * t5 + 91140 * t4 - 16680 * t3 - 130850 * q -
        7154) / t2
  else if q < 4 then
    (2 / 45) * Real.pi * (-10 * t9 + 315 * t8 - 4320 * t7 + 33600 * t6 - 161280 * t5 + 483840 *
        t4 - 860160 * t3 + 737280 * t2 - 327680) / q - (2 / 45) * Real.pi * (-t1 + 35 * t9 - 540
        * t8 + 4800 * t7 - 26880 * t6 + 96768 * t5 - 215040 * t4 + 245760 * t3 - 327680 * q +
        110944) / t2
  else
    6720 * Real.pi / t2

/-- sphkernels.hpp:583-748: class `KernelDefM8`. -/
noncomputable def kernel : KernelDef :=
  { Rkern := Rkern, hfactd := hfactd, norm_1d := norm_1d, norm_2d := norm_2d, norm_3d := norm_3d,
      f := f,
    df := df, ddf := ddf, phi_tilde_3d := phi_tilde_3d, phi_tilde_3d_prime := phi_tilde_3d_prime }

end M8

namespace M9

/-- sphkernels.hpp:753. -/
noncomputable def Rkern : ℝ := (45 / 10)

/-- sphkernels.hpp:755. -/
noncomputable def hfactd : ℝ := 1

/-- sphkernels.hpp:758. -/
noncomputable def norm_1d : ℝ := 1 / 40320

/-- sphkernels.hpp:760. -/
noncomputable def norm_2d : ℝ := 512 / (14345663 * Real.pi)

/-- sphkernels.hpp:762. -/
noncomputable def norm_3d : ℝ := 6 / (362880 * Real.pi)

/-- sphkernels.hpp:764-802. -/
noncomputable def f (q : ℝ) : ℝ :=
  let div9_2 : ℝ := (9 / 2)
  let div7_2 : ℝ := (7 / 2)
  let div5_2 : ℝ := (5 / 2)
  let div3_2 : ℝ := (3 / 2)
  let div1_2 : ℝ := (1 / 2)
  let t1 : ℝ := div9_2 - q
  let t2 : ℝ := div7_2 - q
  let t3 : ℝ := div5_2 - q
  let t4 : ℝ := div3_2 - q
  let t5 : ℝ := div1_2 - q
  let t1 : ℝ := (t1) ^ 8
  let t2 : ℝ := (t2) ^ 8
  let t3 : ℝ := (t3) ^ 8
  let t4 : ℝ := (t4) ^ 8
  let t5 : ℝ := (t5) ^ 8
  let t1 : ℝ := t1 * (1)
  let t2 : ℝ := t2 * (-9)
  let t3 : ℝ := t3 * (36)
  let t4 : ℝ := t4 * (-84)
  let t5 : ℝ := t5 * (126)
  if q < div1_2 then
    t1 + t2 + t3 + t4 + t5
  else if q < div3_2 then
    t1 + t2 + t3 + t4
  else if q < div5_2 then
    t1 + t2 + t3
  else if q < div7_2 then
    t1 + t2
  else if q < div9_2 then
    t1
  else
    0

/-- sphkernels.hpp:804-842. -/
noncomputable def df (q : ℝ) : ℝ :=
  let div9_2 : ℝ := (9 / 2)
  let div7_2 : ℝ := (7 / 2)
  let div5_2 : ℝ := (5 / 2)
  let div3_2 : ℝ := (3 / 2)
  let div1_2 : ℝ := (1 / 2)
  let t1 : ℝ := div9_2 - q
  let t2 : ℝ := div7_2 - q
  let t3 : ℝ := div5_2 - q
  let t4 : ℝ := div3_2 - q
  let t5 : ℝ := div1_2 - q
  let t1 : ℝ := (t1) ^ 7
  let t2 : ℝ := (t2) ^ 7
  let t3 : ℝ := (t3) ^ 7
  let t4 : ℝ := (t4) ^ 7
  let t5 : ℝ := (t5) ^ 7
  let t1 : ℝ := t1 * ((-8) * (1))
  let t2 : ℝ := t2 * ((-8) * (-9))
  let t3 : ℝ := t3 * ((-8) * (36))
  let t4 : ℝ := t4 * ((-8) * (-84))
  let t5 : ℝ := t5 * ((-8) * (126))
  if q < div1_2 then
    t1 + t2 + t3 + t4 + t5
  else if q < div3_2 then
    t1 + t2 + t3 + t4
  else if q < div5_2 then
    t1 + t2 + t3
  else if q < div7_2 then
    t1 + t2
  else if q < div9_2 then
    t1
  else
    0

/-- sphkernels.hpp:844-862. -/
noncomputable def ddf (q : ℝ) : ℝ :=
  let t1 : ℝ := (1 / 2 - q) ^ 6
  let t2 : ℝ := (3 / 2 - q) ^ 6
  let t3 : ℝ := (5 / 2 - q) ^ 6
  let t4 : ℝ := (7 / 2 - q) ^ 6
  let t5 : ℝ := (9 / 2 - q) ^ 6
  if q < 1 / 2 then
    7056 * t1 - 4704 * t2 + 2016 * t3 - 504 * t4 + 56 * t5
  else if q < 3 / 2 then
    -4704 * t2 + 2016 * t3 - 504 * t4 + 56 * t5
  else if q < 5 / 2 then
    2016 * t3 - 504 * t4 + 56 * t5
  else if q < 7 / 2 then
    -504 * t4 + 56 * t5
  else if q < 9 / 2 then
    56 * t5
  else
    0

/-- sphkernels.hpp:864-905. -/
noncomputable def phi_tilde_3d (q : ℝ) : ℝ :=
  let t1 : ℝ := (q) ^ 10
  let t2 : ℝ := (q) ^ 11
  let t3 : ℝ := (q) ^ 2
  let t4 : ℝ := (q) ^ 3
  let t5 : ℝ := (q) ^ 4
  let t6 : ℝ := (q) ^ 5
  let t7 : ℝ := (q) ^ 6
  let t8 : ℝ := (q) ^ 7
  let t9 : ℝ := (q) ^ 8
  let t10 : ℝ := (q) ^ 9
  if q < 1 / 2 then
    (1 / 2816) * Real.pi * (7168 * t1 - 98560 * t9 + 908160 * t7 - 6408864 * t5 + 34283436 * t3 -
        157802293)
  else if q < 3 / 2 then
    (1 / 14080) * Real.pi * (-28672 * t2 + 315392 * t1 - 1182720 * t10 + 887040 * t9 + 3801600 *
        t8 + 413952 * t7 - 32199552 * t6 + 36960 * t5 + 171412560 * t4 - 789011388 * q - 7) / q
  else if q < 5 / 2 then
    (1 / 14080) * Real.pi * (14336 * t2 - 315392 * t1 + 2956800 * t10 - 15079680 * t9 + 43718400
        * t8 - 66646272 * t7 + 43243200 * t6 - 53850720 * t5 + 191620440 * t4 - 792042570 * q +
        826679) / q
  else if q < 7 / 2 then
    (1 / 14080) * Real.pi * (-4096 * t2 + 135168 * t1 - 1971200 * t10 + 16600320 * t9 - 88281600
        * t8 + 302953728 * t7 - 649756800 * t6 + 771149280 * t5 - 324004560 * t4 - 577198820 * q
        - 96829571) / q
  else if q < 9 / 2 then
    (1 / 28160) * Real.pi * (1024 * t2 - 45056 * t1 + 887040 * t10 - 10264320 * t9 + 76982400 *
        t8 - 387991296 * t7 + 1309470624 * t6 - 2806008480 * t5 + 3156759540 * t4 - 4261625379 *
        q + 1783667601) / q
  else
    -60480 * Real.pi / q

/-- sphkernels.hpp:907-967. -/
noncomputable def phi_tilde_3d_prime (q : ℝ) : ℝ :=
  let t1 : ℝ := (q) ^ 10
  let t2 : ℝ := (q) ^ 11
  let t3 : ℝ := (q) ^ 2
  let t4 : ℝ := (q) ^ 3
  let t5 : ℝ := (q) ^ 4
  let t6 : ℝ := (q) ^ 5
  let t7 : ℝ := (q) ^ 6
  let t8 : ℝ := (q) ^ 7
  let t9 : ℝ := (q) ^ 8
  let t10 : ℝ := (q) ^ 9
  if q < 1 / 2 then
    (1 / 2816) * Real.pi * (71680 * t10 - 788480 * t8 + 5448960 * t6 - 25635456 * t4 + 68566872 *
        q)
  else if q < 3 / 2 then
    (1 / 14080) * Real.pi * (-315392 * t1 + 3153920 * t10 - 10644480 * t9 + 7096320 * t8 +
        26611200 * t7 + 2483712 * t6 - 160997760 * t5 + 147840 * t4 + 514237680 * t3 - 789011388)
        / q - (1 / 14080) * Real.pi * (-28672 * t2 + 315392 * t1 - 1182720 * t10 + 887040 * t9 +
        3801600 * t8 + 413952 * t7 - 32199552 * t6 + 36960 * t5 + 171412560 * t4 - 789011388 * q
        - 7) / t3
  else if q < 5 / 2 then
    (1 / 14080) * Real.pi * (157696 * t1 - 3153920 * t10 + 26611200 * t9 - 120637440 * t8 +
        306028800 * t7 - 399877632 * t6 + 216216000 * t5 - 215402880 * t4 + 574861320 * t3 -
        792042570) / q - (1 / 14080) * Real.pi * (14336 * t2 - 315392 * t1 + 2956800 * t10 -
        15079680 * t9 + 43718400 * t8 - 66646272 * t7 + 43243200 * t6 - 53850720 * t5 + 191620440
        * t4 - 792042570 * q + 826679) / t3
  else if q < 7 / 2 then
    (1 / 14080) * Real.pi * (-45056 * t1 + 1351680 * t10 - 17740800 * t9 + 132802560 * t8 -
        617971200 * t7 + 1817722368 * t6 - 3248784000 * t5 + 3084597120 * t4 - 972013680 * t3 -
        577198820) / q - (1 / 14080) * Real.pi * (-4096 * t2 + 135168 * t1 - 1971200 * t10 +
        16600320 * t9 - 88281600 * t8 + 302953728 * t7 - 649756800 * t6 + 771149280 * t5 -
        324004560 * t4 - 577198820 * q - 96829571) / t3
  else if q < 9 / 2 then
    (1 / 28160) * Real.pi * (11264 * t1 - 450560 * t10 + 7983360 * t9 - 82114560 * t8 + 538876800
        * t7 - 2327947776 * t6 + 6547353120 * t5 - 11224033920 * t4 + 9470278620 * t3 -
        4261625379) / q - (1 / 28160) * Real.pi * (1024 * t2 - 45056 * t1 + 887040 * t10 -
        10264320 * t9 + 76982400 * t8 - 387991296 * t7 + 1309470624 * t6 - 2806008480 * t5 +
        3156759540 * t4 - 4261625379 * q + 1783667601) / t3
  else
    60480 * Real.pi / t3

/-- sphkernels.hpp:750-968: class `KernelDefM9`. -/
noncomputable def kernel : KernelDef :=
  { Rkern := Rkern, hfactd := hfactd, norm_1d := norm_1d, norm_2d := norm_2d, norm_3d := norm_3d,
      f := f,
    df := df, ddf := ddf, phi_tilde_3d := phi_tilde_3d, phi_tilde_3d_prime := phi_tilde_3d_prime }

end M9

namespace M10

/-- sphkernels.hpp:973. -/
noncomputable def Rkern : ℝ := 5

/-- sphkernels.hpp:975. -/
noncomputable def hfactd : ℝ := 1

/-- sphkernels.hpp:978. -/
noncomputable def norm_1d : ℝ := 1 / 362880

/-- sphkernels.hpp:980. -/
noncomputable def norm_2d : ℝ := 11 / (2922230 * Real.pi)

/-- sphkernels.hpp:982. -/
noncomputable def norm_3d : ℝ := 6 / (3628800 * Real.pi)

/-- sphkernels.hpp:984-1016. -/
noncomputable def f (q : ℝ) : ℝ :=
  let t1 : ℝ := 5 - q
  let t2 : ℝ := 4 - q
  let t3 : ℝ := 3 - q
  let t4 : ℝ := 2 - q
  let t5 : ℝ := 1 - q
  let t1 : ℝ := (t1) ^ 9
  let t2 : ℝ := (t2) ^ 9
  let t3 : ℝ := (t3) ^ 9
  let t4 : ℝ := (t4) ^ 9
  let t5 : ℝ := (t5) ^ 9
  let t1 : ℝ := t1 * (1)
  let t2 : ℝ := t2 * (-10)
  let t3 : ℝ := t3 * (45)
  let t4 : ℝ := t4 * (-120)
  let t5 : ℝ := t5 * (210)
  if q < 1 then
    t1 + t2 + t3 + t4 + t5
  else if q < 2 then
    t1 + t2 + t3 + t4
  else if q < 3 then
    t1 + t2 + t3
  else if q < 4 then
    t1 + t2
  else if q < 5 then
    t1
  else
    0

/-- sphkernels.hpp:1018-1050. -/
noncomputable def df (q : ℝ) : ℝ :=
  let t1 : ℝ := 5 - q
  let t2 : ℝ := 4 - q
  let t3 : ℝ := 3 - q
  let t4 : ℝ := 2 - q
  let t5 : ℝ := 1 - q
  let t1 : ℝ := (t1) ^ 8
  let t2 : ℝ := (t2) ^ 8
  let t3 : ℝ := (t3) ^ 8
  let t4 : ℝ := (t4) ^ 8
  let t5 : ℝ := (t5) ^ 8
  let t1 : ℝ := t1 * ((-9) * (1))
  let t2 : ℝ := t2 * ((-9) * (-10))
  let t3 : ℝ := t3 * ((-9) * (45))
  let t4 : ℝ := t4 * ((-9) * (-120))
  let t5 : ℝ := t5 * ((-9) * (210))
  if q < 1 then
    t1 + t2 + t3 + t4 + t5
  else if q < 2 then
    t1 + t2 + t3 + t4
  else if q < 3 then
    t1 + t2 + t3
  else if q < 4 then
    t1 + t2
  else if q < 5 then
    t1
  else
    0

/-- sphkernels.hpp:1052-1070. -/
noncomputable def ddf (q : ℝ) : ℝ :=
  let t1 : ℝ := (1 - q) ^ 7
  let t2 : ℝ := (2 - q) ^ 7
  let t3 : ℝ := (3 - q) ^ 7
  let t4 : ℝ := (4 - q) ^ 7
  let t5 : ℝ := (5 - q) ^ 7
  if q < 1 then
    15120 * t1 - 8640 * t2 + 3240 * t3 - 720 * t4 + 72 * t5
  else if q < 2 then
    -8640 * t2 + 3240 * t3 - 720 * t4 + 72 * t5
  else if q < 3 then
    3240 * t3 - 720 * t4 + 72 * t5
  else if q < 4 then
    -720 * t4 + 72 * t5
  else if q < 5 then
    72 * t5
  else
    0

/-- sphkernels.hpp:1072-1113. -/
noncomputable def phi_tilde_3d (q : ℝ) : ℝ :=
  let t1 : ℝ := (q) ^ 10
  let t2 : ℝ := (q) ^ 11
  let t3 : ℝ := (q) ^ 12
  let t4 : ℝ := (q) ^ 2
  let t5 : ℝ := (q) ^ 3
  let t6 : ℝ := (q) ^ 4
  let t7 : ℝ := (q) ^ 5
  let t8 : ℝ := (q) ^ 6
  let t9 : ℝ := (q) ^ 7
  let t10 : ℝ := (q) ^ 8
  let t11 : ℝ := (q) ^ 9
  if q < 1 then
    (2 / 33) * Real.pi * (-63 * t2 + 378 * t1 - 3850 * t10 + 37620 * t8 - 291060 * t6 + 1718090 *
        t4 - 8766690)
  else if q < 2 then
    (2 / 33) * Real.pi * (42 * t3 - 756 * t2 + 5544 * t1 - 20020 * t11 + 31185 * t10 - 3960 * t9
        + 38808 * t8 - 316008 * t7 + 10395 * t6 + 1715780 * t5 - 8766564 * q - 21) / q
  else if q < 3 then
    (2 / 33) * Real.pi * (-18 * t3 + 540 * t2 - 7128 * t1 + 53900 * t11 - 253935 * t10 + 756360 *
        t9 - 1380456 * t8 + 1508760 * t7 - 1510245 * t6 + 2391620 * t5 - 8914020 * q + 49131) / q
  else if q < 4 then
    (1 / 33) * Real.pi * (9 * t3 - 378 * t2 + 7128 * t1 - 79310 * t11 + 574695 * t10 - 2817540 *
        t9 + 9363816 * t8 - 20365884 * t7 + 26208765 * t6 - 14702930 * t5 - 8262102 * q -
        4684707) / q
  else if q < 5 then
    (1 / 33) * Real.pi * (-t3 + 54 * t2 - 1320 * t1 + 19250 * t11 - 185625 * t10 + 1237500 * t9 -
        5775000 * t8 + 18562500 * t7 - 38671875 * t6 + 42968750 * t5 - 58593750 * q + 28869725) /
        q
  else
    -604800 * Real.pi / q

/-- sphkernels.hpp:1115-1177. -/
noncomputable def phi_tilde_3d_prime (q : ℝ) : ℝ :=
  let t1 : ℝ := (q) ^ 10
  let t2 : ℝ := (q) ^ 11
  let t3 : ℝ := (q) ^ 12
  let t4 : ℝ := (q) ^ 2
  let t5 : ℝ := (q) ^ 3
  let t6 : ℝ := (q) ^ 4
  let t7 : ℝ := (q) ^ 5
  let t8 : ℝ := (q) ^ 6
  let t9 : ℝ := (q) ^ 7
  let t10 : ℝ := (q) ^ 8
  let t11 : ℝ := (q) ^ 9
  if q < 1 then
    (2 / 33) * Real.pi * (-693 * t1 + 3780 * t11 - 30800 * t9 + 225720 * t7 - 1164240 * t5 +
        3436180 * q)
  else if q < 2 then
    (2 / 33) * Real.pi * (504 * t2 - 8316 * t1 + 55440 * t11 - 180180 * t10 + 249480 * t9 - 27720
        * t8 + 232848 * t7 - 1580040 * t6 + 41580 * t5 + 5147340 * t4 - 8766564) / q - (2 / 33) *
        Real.pi * (42 * t3 - 756 * t2 + 5544 * t1 - 20020 * t11 + 31185 * t10 - 3960 * t9 + 38808
        * t8 - 316008 * t7 + 10395 * t6 + 1715780 * t5 - 8766564 * q - 21) / t4
  else if q < 3 then
    (2 / 33) * Real.pi * (-216 * t2 + 5940 * t1 - 71280 * t11 + 485100 * t10 - 2031480 * t9 +
        5294520 * t8 - 8282736 * t7 + 7543800 * t6 - 6040980 * t5 + 7174860 * t4 - 8914020) / q -
        (2 / 33) * Real.pi * (-18 * t3 + 540 * t2 - 7128 * t1 + 53900 * t11 - 253935 * t10 +
        756360 * t9 - 1380456 * t8 + 1508760 * t7 - 1510245 * t6 + 2391620 * t5 - 8914020 * q +
        49131) / t4
  else if q < 4 then
    (1 / 33) * Real.pi * (108 * t2 - 4158 * t1 + 71280 * t11 - 713790 * t10 + 4597560 * t9 -
        19722780 * t8 + 56182896 * t7 - 101829420 * t6 + 104835060 * t5 - 44108790 * t4 -
        8262102) / q - (1 / 33) * Real.pi * (9 * t3 - 378 * t2 + 7128 * t1 - 79310 * t11 + 574695
        * t10 - 2817540 * t9 + 9363816 * t8 - 20365884 * t7 + 26208765 * t6 - 14702930 * t5 -
        8262102 * q - 4684707) / t4
  else if q < 5 then
    (1 / 33) * Real.pi * (-12 * t2 + 594 * t1 - 13200 * t11 + 173250 * t10 - 1485000 * t9 +
        8662500 * t8 - 34650000 * t7 + 92812500 * t6 - 154687500 * t5 + 128906250 * t4 -
        58593750) / q - (1 / 33) * Real.pi * (-t3 + 54 * t2 - 1320 * t1 + 19250 * t11 - 185625 *
        t10 + 1237500 * t9 - 5775000 * t8 + 18562500 * t7 - 38671875 * t6 + 42968750 * t5 -
        58593750 * q + 28869725) / t4
  else
    604800 * Real.pi / t4

/-- sphkernels.hpp:970-1178: class `KernelDefM10`. -/
noncomputable def kernel : KernelDef :=
  { Rkern := Rkern, hfactd := hfactd, norm_1d := norm_1d, norm_2d := norm_2d, norm_3d := norm_3d,
      f := f,
    df := df, ddf := ddf, phi_tilde_3d := phi_tilde_3d, phi_tilde_3d_prime := phi_tilde_3d_prime }

end M10

namespace C2

/-- sphkernels.hpp:1183. -/
noncomputable def Rkern : ℝ := 2

/-- sphkernels.hpp:1185. -/
noncomputable def hfactd : ℝ := (14 / 10)

/-- sphkernels.hpp:1188. -/
noncomputable def norm_1d : ℝ := 3 / 4

/-- sphkernels.hpp:1190. -/
noncomputable def norm_2d : ℝ := 7 / (4 * Real.pi)

/-- sphkernels.hpp:1192. -/
noncomputable def norm_3d : ℝ := 21 / (16 * Real.pi)

/-- sphkernels.hpp:1194-1208. -/
noncomputable def f (q : ℝ) : ℝ :=
  let div1_2 : ℝ := (1 / 2)
  let p1 : ℝ := (1 - q * div1_2)
  let p2 : ℝ := (1 + q * 2)
  let p1 : ℝ := p1 * (p1)
  let p1 : ℝ := p1 * (p1)
  if q < 2 then
    p1 * p2
  else
    0

/-- sphkernels.hpp:1210-1225. -/
noncomputable def df (q : ℝ) : ℝ :=
  let div1_2 : ℝ := (1 / 2)
  let div1_8 : ℝ := (1 / 8)
  let div1_4 : ℝ := (1 / 4)
  let p1 : ℝ := (1 - q * div1_2)
  let p2 : ℝ := (1 + q * 2)
  let p3 : ℝ := p1 * p1 * p1
  if q < 2 then
    2 * (p3 * p1 - p3 * p2)
  else
    0

/-- sphkernels.hpp:1227-1234. -/
noncomputable def ddf (q : ℝ) : ℝ :=
  let t1 : ℝ := (1 - (1 / 2) * q) ^ 2
  let t2 : ℝ := (1 - (1 / 2) * q) ^ 3
  if q < 2 then
    -8 * t2 + 3 * t1 * (2 * q + 1)
  else
    0

/-- sphkernels.hpp:1236-1246. -/
noncomputable def phi_tilde_3d (q : ℝ) : ℝ :=
  let t1 : ℝ := (q) ^ 2
  let t2 : ℝ := (q) ^ 3
  let t3 : ℝ := (q) ^ 4
  let t4 : ℝ := (q) ^ 5
  if q < 2 then
    (1 / 336) * Real.pi * (t1 * (3 * t4 - 30 * t3 + 112 * t2 - 168 * t1 + 224) - 384)
  else
    -(16 / 21) * Real.pi / q

/-- sphkernels.hpp:1248-1259. -/
noncomputable def phi_tilde_3d_prime (q : ℝ) : ℝ :=
  let t1 : ℝ := (q) ^ 2
  let t2 : ℝ := (q) ^ 3
  let t3 : ℝ := (q) ^ 4
  let t4 : ℝ := (q) ^ 5
  if q < 2 then
    (1 / 336) * Real.pi * (t1 * (15 * t3 - 120 * t2 + 336 * t1 - 336 * q) + 2 * q * (3 * t4 - 30
        * t3 + 112 * t2 - 168 * t1 + 224))
  else
    (16 / 21) * Real.pi / t1

/-- sphkernels.hpp:1180-1260: class `KernelDefC2`. -/
noncomputable def kernel : KernelDef :=
  { Rkern := Rkern, hfactd := hfactd, norm_1d := norm_1d, norm_2d := norm_2d, norm_3d := norm_3d,
      f := f,
    df := df, ddf := ddf, phi_tilde_3d := phi_tilde_3d, phi_tilde_3d_prime := phi_tilde_3d_prime }

end C2

namespace C4

/-- sphkernels.hpp:1265. -/
noncomputable def Rkern : ℝ := 2

/-- sphkernels.hpp:1267. -/
noncomputable def hfactd : ℝ := (16 / 10)

/-- sphkernels.hpp:1270. -/
noncomputable def norm_1d : ℝ := 27 / 32

/-- sphkernels.hpp:1272. -/
noncomputable def norm_2d : ℝ := 9 / (4 * Real.pi)

/-- sphkernels.hpp:1274. -/
noncomputable def norm_3d : ℝ := 495 / (256 * Real.pi)

/-- sphkernels.hpp:1276-1291. -/
noncomputable def f (q : ℝ) : ℝ :=
  let div1_2 : ℝ := (1 / 2)
  let div35_12 : ℝ := (35 / 12)
  let p1 : ℝ := (1 - q * div1_2)
  let p2 : ℝ := (1 + q * 3 + div35_12 * q * q)
  let p1 : ℝ := p1 * (p1)
  let p1 : ℝ := p1 * p1 * p1
  if q < 2 then
    p1 * p2
  else
    0

/-- sphkernels.hpp:1293-1307. -/
noncomputable def df (q : ℝ) : ℝ :=
  let div7_96 : ℝ := (7 / 96)
  let p1 : ℝ := (-2 + q)
  let p2 : ℝ := (2 + 5 * q)
  let p14 : ℝ := p1 * p1
  let p14 : ℝ := p14 * (p14)
  if q < 2 then
    div7_96 * p14 * p1 * q * p2
  else
    0

/-- sphkernels.hpp:1309-1319. -/
noncomputable def ddf (q : ℝ) : ℝ :=
  let t1 : ℝ := (q) ^ 2
  let t2 : ℝ := (1 - (1 / 2) * q) ^ 4
  let t3 : ℝ := (1 - (1 / 2) * q) ^ 5
  let t4 : ℝ := (1 - (1 / 2) * q) ^ 6
  if q < 2 then
    (35 / 6) * t4 - 6 * t3 * ((35 / 6) * q + 3) + (15 / 2) * t2 * ((35 / 12) * t1 + 3 * q + 1)
  else
    0

/-- sphkernels.hpp:1321-1336. -/
noncomputable def phi_tilde_3d (q : ℝ) : ℝ :=
  let t1 : ℝ := (q) ^ 2
  let t2 : ℝ := (q) ^ 4
  let t3 : ℝ := (q) ^ 5
  let t4 : ℝ := (q) ^ 6
  let t5 : ℝ := (q) ^ 7
  let t6 : ℝ := (q) ^ 8
  if q < 2 then
    (1 / 63360) * Real.pi * (t1 * (105 * t6 - 1408 * t5 + 7700 * t4 - 21120 * t3 + 26400 * t2 -
        29568 * t1 + 42240) - 56320)
  else
    -(256 / 495) * Real.pi / q

/-- sphkernels.hpp:1338-1356. -/
noncomputable def phi_tilde_3d_prime (q : ℝ) : ℝ :=
  let t1 : ℝ := (q) ^ 2
  let t2 : ℝ := (q) ^ 3
  let t3 : ℝ := (q) ^ 4
  let t4 : ℝ := (q) ^ 5
  let t5 : ℝ := (q) ^ 6
  let t6 : ℝ := (q) ^ 7
  let t7 : ℝ := (q) ^ 8
  if q < 2 then
    (1 / 63360) * Real.pi * (t1 * (840 * t6 - 9856 * t5 + 46200 * t4 - 105600 * t3 + 105600 * t2
        - 59136 * q) + 2 * q * (105 * t7 - 1408 * t6 + 7700 * t5 - 21120 * t4 + 26400 * t3 -
        29568 * t1 + 42240))
  else
    (256 / 495) * Real.pi / t1

/-- sphkernels.hpp:1262-1357: class `KernelDefC4`. -/
noncomputable def kernel : KernelDef :=
  { Rkern := Rkern, hfactd := hfactd, norm_1d := norm_1d, norm_2d := norm_2d, norm_3d := norm_3d,
      f := f,
    df := df, ddf := ddf, phi_tilde_3d := phi_tilde_3d, phi_tilde_3d_prime := phi_tilde_3d_prime }

end C4

namespace C6

/-- sphkernels.hpp:1362. -/
noncomputable def Rkern : ℝ := 2

/-- sphkernels.hpp:1364. -/
noncomputable def hfactd : ℝ := (22 / 10)

/-- sphkernels.hpp:1367. -/
noncomputable def norm_1d : ℝ := 15 / 16

/-- sphkernels.hpp:1369. -/
noncomputable def norm_2d : ℝ := 39 / (14 * Real.pi)

/-- sphkernels.hpp:1371. -/
noncomputable def norm_3d : ℝ := 1365 / (512 * Real.pi)

/-- sphkernels.hpp:1373-1389. -/
noncomputable def f (q : ℝ) : ℝ :=
  let div1_2 : ℝ := (1 / 2)
  let div25_4 : ℝ := (25 / 4)
  let p1 : ℝ := (1 - q * div1_2)
  let p2 : ℝ := (1 + q * 4 + div25_4 * q * q + 4 * q * q * q)
  let p1 : ℝ := p1 * (p1)
  let p1 : ℝ := p1 * (p1)
  let p1 : ℝ := p1 * (p1)
  if q < 2 then
    p1 * p2
  else
    0

/-- sphkernels.hpp:1391-1406. -/
noncomputable def df (q : ℝ) : ℝ :=
  let div11_512 : ℝ := (11 / 512)
  let p1 : ℝ := (-2 + q)
  let p2 : ℝ := 2 + 7 * q + 8 * q * q
  let p12 : ℝ := p1 * p1
  let p14 : ℝ := p12 * p12
  let p17 : ℝ := p12 * p14 * p1
  if q < 2 then
    div11_512 * p17 * q * p2
  else
    0

/-- sphkernels.hpp:1408-1419. -/
noncomputable def ddf (q : ℝ) : ℝ :=
  let t1 : ℝ := (q) ^ 2
  let t2 : ℝ := (q) ^ 3
  let t3 : ℝ := (1 - (1 / 2) * q) ^ 6
  let t4 : ℝ := (1 - (1 / 2) * q) ^ 7
  let t5 : ℝ := (1 - (1 / 2) * q) ^ 8
  if q < 2 then
    t5 * (24 * q + 25 / 2) - 8 * t4 * (12 * t1 + (25 / 2) * q + 4) + 14 * t3 * (4 * t2 + (25 / 4)
        * t1 + 4 * q + 1)
  else
    0

/-- sphkernels.hpp:1421-1438. -/
noncomputable def phi_tilde_3d (q : ℝ) : ℝ :=
  let t1 : ℝ := (q) ^ 10
  let t2 : ℝ := (q) ^ 11
  let t3 : ℝ := (q) ^ 2
  let t4 : ℝ := (q) ^ 4
  let t5 : ℝ := (q) ^ 6
  let t6 : ℝ := (q) ^ 7
  let t7 : ℝ := (q) ^ 8
  let t8 : ℝ := (q) ^ 9
  if q < 2 then
    (1 / 1397760) * Real.pi * (t3 * (480 * t2 - 8085 * t1 + 58240 * t8 - 229320 * t7 + 512512 *
        t6 - 560560 * t5 + 549120 * t4 - 768768 * t3 + 931840) - 1003520)
  else
    -(512 / 1365) * Real.pi / q

/-- sphkernels.hpp:1440-1461. -/
noncomputable def phi_tilde_3d_prime (q : ℝ) : ℝ :=
  let t1 : ℝ := (q) ^ 10
  let t2 : ℝ := (q) ^ 11
  let t3 : ℝ := (q) ^ 2
  let t4 : ℝ := (q) ^ 3
  let t5 : ℝ := (q) ^ 4
  let t6 : ℝ := (q) ^ 5
  let t7 : ℝ := (q) ^ 6
  let t8 : ℝ := (q) ^ 7
  let t9 : ℝ := (q) ^ 8
  let t10 : ℝ := (q) ^ 9
  if q < 2 then
    (1 / 1397760) * Real.pi * (t3 * (5280 * t1 - 80850 * t10 + 524160 * t9 - 1834560 * t8 +
        3587584 * t7 - 3363360 * t6 + 2196480 * t4 - 1537536 * q) + 2 * q * (480 * t2 - 8085 * t1
        + 58240 * t10 - 229320 * t9 + 512512 * t8 - 560560 * t7 + 549120 * t5 - 768768 * t3 +
        931840))
  else
    (512 / 1365) * Real.pi / t3

/-- sphkernels.hpp:1359-1462: class `KernelDefC6`. -/
noncomputable def kernel : KernelDef :=
  { Rkern := Rkern, hfactd := hfactd, norm_1d := norm_1d, norm_2d := norm_2d, norm_3d := norm_3d,
      f := f,
    df := df, ddf := ddf, phi_tilde_3d := phi_tilde_3d, phi_tilde_3d_prime := phi_tilde_3d_prime }

end C6

namespace M4DoubleHump

/-- sphkernels.hpp:1609. -/
noncomputable def Rkern : ℝ := 2

/-- sphkernels.hpp:1611. -/
noncomputable def hfactd : ℝ := (12 / 10)

/-- sphkernels.hpp:1614. -/
noncomputable def norm_1d : ℝ := 2

/-- sphkernels.hpp:1616. -/
noncomputable def norm_2d : ℝ := (49 / 31) * 10 / (7 * Real.pi)

/-- sphkernels.hpp:1619. -/
noncomputable def norm_3d : ℝ := (10 / 9) * 1 / Real.pi

/-- sphkernels.hpp:1621. -/
noncomputable def f (q : ℝ) : ℝ :=
  M4.f (q) * q * q

/-- sphkernels.hpp:1623-1625. -/
noncomputable def df (q : ℝ) : ℝ :=
  M4.df (q) * q * q + 2 * M4.f (q) * q

/-- sphkernels.hpp:1627-1640. -/
noncomputable def ddf (q : ℝ) : ℝ :=
  let t1 : ℝ := (1 - q) ^ 2
  let t2 : ℝ := (2 - q) ^ 2
  let t3 : ℝ := (q) ^ 2
  let t4 : ℝ := (1 - q) ^ 3
  let t5 : ℝ := (2 - q) ^ 3
  if q < 1 then
    t3 * ((9 / 2) * q - 3) + 4 * q * (3 * t1 - (3 / 4) * t2) - 2 * t4 + (1 / 2) * t5
  else if q < 2 then
    -(3 / 4) * t3 * (2 * q - 4) - 3 * q * t2 + (1 / 2) * t5
  else
    0

/-- sphkernels.hpp:1642-1658. -/
noncomputable def phi_tilde_3d (q : ℝ) : ℝ :=
  let t1 : ℝ := (q) ^ 2
  let t2 : ℝ := (q) ^ 3
  let t3 : ℝ := (q) ^ 4
  let t4 : ℝ := (q) ^ 5
  let t5 : ℝ := (q) ^ 6
  let t6 : ℝ := (q) ^ 7
  let t7 : ℝ := (q) ^ 8
  if q < 1 then
    (1 / 280) * Real.pi * (t3 * (15 * t2 - 40 * t1 + 56) - 248)
  else if q < 2 then
    (1 / 280) * Real.pi * (-5 * t7 + 40 * t6 - 112 * t5 + 112 * t4 - 256 * q + 4) / q
  else
    -(9 / 10) * Real.pi / q

/-- sphkernels.hpp:1660-1678. -/
noncomputable def phi_tilde_3d_prime (q : ℝ) : ℝ :=
  let t1 : ℝ := (q) ^ 2
  let t2 : ℝ := (q) ^ 3
  let t3 : ℝ := (q) ^ 4
  let t4 : ℝ := (q) ^ 5
  let t5 : ℝ := (q) ^ 6
  let t6 : ℝ := (q) ^ 7
  let t7 : ℝ := (q) ^ 8
  if q < 1 then
    (1 / 280) * Real.pi * (t3 * (45 * t1 - 80 * q) + 4 * t2 * (15 * t2 - 40 * t1 + 56))
  else if q < 2 then
    (1 / 280) * Real.pi * (-40 * t6 + 280 * t5 - 672 * t4 + 560 * t3 - 256) / q - (1 / 280) *
        Real.pi * (-5 * t7 + 40 * t6 - 112 * t5 + 112 * t4 - 256 * q + 4) / t1
  else
    (9 / 10) * Real.pi / t1

/-- sphkernels.hpp:1606-1679: class `KernelDefM4DoubleHump`. -/
noncomputable def kernel : KernelDef :=
  { Rkern := Rkern, hfactd := hfactd, norm_1d := norm_1d, norm_2d := norm_2d, norm_3d := norm_3d,
      f := f,
    df := df, ddf := ddf, phi_tilde_3d := phi_tilde_3d, phi_tilde_3d_prime := phi_tilde_3d_prime }

end M4DoubleHump

namespace M4DoubleHump3

/-- sphkernels.hpp:1684. -/
noncomputable def Rkern : ℝ := 2

/-- sphkernels.hpp:1686. -/
noncomputable def hfactd : ℝ := (12 / 10)

/-- sphkernels.hpp:1689. -/
noncomputable def norm_1d : ℝ := (105 / 31) * 2 / 3

/-- sphkernels.hpp:1691. -/
noncomputable def norm_2d : ℝ := (14 / 9) * 10 / (7 * Real.pi)

/-- sphkernels.hpp:1694. -/
noncomputable def norm_3d : ℝ := (126 / 127) * 1 / Real.pi

/-- sphkernels.hpp:1696. -/
noncomputable def f (q : ℝ) : ℝ :=
  M4.f (q) * q * q * q

/-- sphkernels.hpp:1698-1700. -/
noncomputable def df (q : ℝ) : ℝ :=
  M4.df (q) * q * q * q + 3 * M4.f (q) * q * q

/-- sphkernels.hpp:1702-1717. -/
noncomputable def ddf (q : ℝ) : ℝ :=
  let t1 : ℝ := (1 - q) ^ 2
  let t2 : ℝ := (2 - q) ^ 2
  let t3 : ℝ := (q) ^ 2
  let t4 : ℝ := (1 - q) ^ 3
  let t5 : ℝ := (2 - q) ^ 3
  let t6 : ℝ := (q) ^ 3
  if q < 1 then
    t6 * ((9 / 2) * q - 3) + 6 * t3 * (3 * t1 - (3 / 4) * t2) + 6 * q * (-t4 + (1 / 4) * t5)
  else if q < 2 then
    -(3 / 4) * t6 * (2 * q - 4) - (9 / 2) * t3 * t2 + (3 / 2) * q * t5
  else
    0

/-- sphkernels.hpp:1719-1735. -/
noncomputable def phi_tilde_3d (q : ℝ) : ℝ :=
  let t1 : ℝ := (q) ^ 2
  let t2 : ℝ := (q) ^ 3
  let t3 : ℝ := (q) ^ 5
  let t4 : ℝ := (q) ^ 6
  let t5 : ℝ := (q) ^ 7
  let t6 : ℝ := (q) ^ 8
  let t7 : ℝ := (q) ^ 9
  if q < 1 then
    (1 / 840) * Real.pi * (t3 * (35 * t2 - 90 * t1 + 112) - 756)
  else if q < 2 then
    (1 / 2520) * Real.pi * (-35 * t7 + 270 * t6 - 720 * t5 + 672 * t4 - 2304 * q + 20) / q
  else
    -(127 / 126) * Real.pi / q

/-- sphkernels.hpp:1737-1756. -/
noncomputable def phi_tilde_3d_prime (q : ℝ) : ℝ :=
  let t1 : ℝ := (q) ^ 2
  let t2 : ℝ := (q) ^ 3
  let t3 : ℝ := (q) ^ 4
  let t4 : ℝ := (q) ^ 5
  let t5 : ℝ := (q) ^ 6
  let t6 : ℝ := (q) ^ 7
  let t7 : ℝ := (q) ^ 8
  let t8 : ℝ := (q) ^ 9
  if q < 1 then
    (1 / 840) * Real.pi * (t4 * (105 * t1 - 180 * q) + 5 * t3 * (35 * t2 - 90 * t1 + 112))
  else if q < 2 then
    (1 / 2520) * Real.pi * (-315 * t7 + 2160 * t6 - 5040 * t5 + 4032 * t4 - 2304) / q - (1 /
        2520) * Real.pi * (-35 * t8 + 270 * t7 - 720 * t6 + 672 * t5 - 2304 * q + 20) / t1
  else
    (127 / 126) * Real.pi / t1

/-- sphkernels.hpp:1681-1757: class `KernelDefM4DoubleHump3`. -/
noncomputable def kernel : KernelDef :=
  { Rkern := Rkern, hfactd := hfactd, norm_1d := norm_1d, norm_2d := norm_2d, norm_3d := norm_3d,
      f := f,
    df := df, ddf := ddf, phi_tilde_3d := phi_tilde_3d, phi_tilde_3d_prime := phi_tilde_3d_prime }

end M4DoubleHump3

namespace M4DoubleHump5

/-- sphkernels.hpp:1762. -/
noncomputable def Rkern : ℝ := 2

/-- sphkernels.hpp:1764. -/
noncomputable def hfactd : ℝ := (12 / 10)

/-- sphkernels.hpp:1767. -/
noncomputable def norm_1d : ℝ := 252 / 127

/-- sphkernels.hpp:1769. -/
noncomputable def norm_2d : ℝ := (28 / 17) / Real.pi

/-- sphkernels.hpp:1771. -/
noncomputable def norm_3d : ℝ := (330 / 511) / Real.pi

/-- sphkernels.hpp:1773-1775. -/
noncomputable def f (q : ℝ) : ℝ :=
  M4.f (q) * (q) ^ 5

/-- sphkernels.hpp:1777-1780. -/
noncomputable def df (q : ℝ) : ℝ :=
  M4.df (q) * (q) ^ 5 + 5 * M4.f (q) * (q) ^ 4

/-- sphkernels.hpp:1782-1797. -/
noncomputable def ddf (q : ℝ) : ℝ :=
  let t1 : ℝ := (1 - q) ^ 2
  let t2 : ℝ := (2 - q) ^ 2
  let t3 : ℝ := (1 - q) ^ 3
  let t4 : ℝ := (2 - q) ^ 3
  let t5 : ℝ := (q) ^ 3
  let t6 : ℝ := (q) ^ 4
  let t7 : ℝ := (q) ^ 5
  if q < 1 then
    t7 * ((9 / 2) * q - 3) + 10 * t6 * (3 * t1 - (3 / 4) * t2) + 20 * t5 * (-t3 + (1 / 4) * t4)
  else if q < 2 then
    -(3 / 4) * t7 * (2 * q - 4) - (15 / 2) * t6 * t2 + 5 * t5 * t4
  else
    0

/-- sphkernels.hpp:1799-1815. -/
noncomputable def phi_tilde_3d (q : ℝ) : ℝ :=
  let t1 : ℝ := (q) ^ 10
  let t2 : ℝ := (q) ^ 11
  let t3 : ℝ := (q) ^ 2
  let t4 : ℝ := (q) ^ 3
  let t5 : ℝ := (q) ^ 7
  let t6 : ℝ := (q) ^ 8
  let t7 : ℝ := (q) ^ 9
  if q < 1 then
    (1 / 2310) * Real.pi * (t5 * (63 * t4 - 154 * t3 + 165) - 2805)
  else if q < 2 then
    (1 / 2310) * Real.pi * (-21 * t2 + 154 * t1 - 385 * t7 + 330 * t6 - 2816 * q + 7) / q
  else
    -(511 / 330) * Real.pi / q

/-- sphkernels.hpp:1817-1836. -/
noncomputable def phi_tilde_3d_prime (q : ℝ) : ℝ :=
  let t1 : ℝ := (q) ^ 10
  let t2 : ℝ := (q) ^ 11
  let t3 : ℝ := (q) ^ 2
  let t4 : ℝ := (q) ^ 3
  let t5 : ℝ := (q) ^ 6
  let t6 : ℝ := (q) ^ 7
  let t7 : ℝ := (q) ^ 8
  let t8 : ℝ := (q) ^ 9
  if q < 1 then
    (1 / 2310) * Real.pi * (t6 * (189 * t3 - 308 * q) + 7 * t5 * (63 * t4 - 154 * t3 + 165))
  else if q < 2 then
    (1 / 2310) * Real.pi * (-231 * t1 + 1540 * t8 - 3465 * t7 + 2640 * t6 - 2816) / q - (1 /
        2310) * Real.pi * (-21 * t2 + 154 * t1 - 385 * t8 + 330 * t7 - 2816 * q + 7) / t3
  else
    (511 / 330) * Real.pi / t3

/-- sphkernels.hpp:1759-1837: class `KernelDefM4DoubleHump5`. -/
noncomputable def kernel : KernelDef :=
  { Rkern := Rkern, hfactd := hfactd, norm_1d := norm_1d, norm_2d := norm_2d, norm_3d := norm_3d,
      f := f,
    df := df, ddf := ddf, phi_tilde_3d := phi_tilde_3d, phi_tilde_3d_prime := phi_tilde_3d_prime }

end M4DoubleHump5

namespace M4DoubleHump7

/-- sphkernels.hpp:1842. -/
noncomputable def Rkern : ℝ := 2

/-- sphkernels.hpp:1844. -/
noncomputable def hfactd : ℝ := (12 / 10)

/-- sphkernels.hpp:1847. -/
noncomputable def norm_1d : ℝ := 660 / 511

/-- sphkernels.hpp:1849. -/
noncomputable def norm_2d : ℝ := (30 / 31) / Real.pi

/-- sphkernels.hpp:1851. -/
noncomputable def norm_3d : ℝ := (715 / 2047) / Real.pi

/-- sphkernels.hpp:1853-1855. -/
noncomputable def f (q : ℝ) : ℝ :=
  M4.f (q) * (q) ^ 7

/-- sphkernels.hpp:1857-1860. -/
noncomputable def df (q : ℝ) : ℝ :=
  M4.df (q) * (q) ^ 7 + 7 * M4.f (q) * (q) ^ 6

/-- sphkernels.hpp:1862-1878. -/
noncomputable def ddf (q : ℝ) : ℝ :=
  let t1 : ℝ := (1 - q) ^ 2
  let t2 : ℝ := (2 - q) ^ 2
  let t3 : ℝ := (1 - q) ^ 3
  let t4 : ℝ := (2 - q) ^ 3
  let t5 : ℝ := (q) ^ 5
  let t6 : ℝ := (q) ^ 6
  let t7 : ℝ := (q) ^ 7
  if q < 1 then
    t7 * ((9 / 2) * q - 3) + 14 * t6 * (3 * t1 - (3 / 4) * t2) + 42 * t5 * (-t3 + (1 / 4) * t4)
  else if q < 2 then
    -(3 / 4) * t7 * (2 * q - 4) - (21 / 2) * t6 * t2 + (21 / 2) * t5 * t4
  else
    0

/-- sphkernels.hpp:1880-1896. -/
noncomputable def phi_tilde_3d (q : ℝ) : ℝ :=
  let t1 : ℝ := (q) ^ 10
  let t2 : ℝ := (q) ^ 11
  let t3 : ℝ := (q) ^ 12
  let t4 : ℝ := (q) ^ 13
  let t5 : ℝ := (q) ^ 2
  let t6 : ℝ := (q) ^ 3
  let t7 : ℝ := (q) ^ 9
  if q < 1 then
    (1 / 25740) * Real.pi * (t7 * (495 * t6 - 1170 * t5 + 1144) - 53196)
  else if q < 2 then
    (1 / 25740) * Real.pi * (-165 * t4 + 1170 * t3 - 2808 * t2 + 2288 * t1 - 53248 * q + 36) / q
  else
    -(2047 / 715) * Real.pi / q

/-- sphkernels.hpp:1898-1918. -/
noncomputable def phi_tilde_3d_prime (q : ℝ) : ℝ :=
  let t1 : ℝ := (q) ^ 10
  let t2 : ℝ := (q) ^ 11
  let t3 : ℝ := (q) ^ 12
  let t4 : ℝ := (q) ^ 13
  let t5 : ℝ := (q) ^ 2
  let t6 : ℝ := (q) ^ 3
  let t7 : ℝ := (q) ^ 8
  let t8 : ℝ := (q) ^ 9
  if q < 1 then
    (1 / 25740) * Real.pi * (t8 * (1485 * t5 - 2340 * q) + 9 * t7 * (495 * t6 - 1170 * t5 + 1144))
  else if q < 2 then
    (1 / 25740) * Real.pi * (-2145 * t3 + 14040 * t2 - 30888 * t1 + 22880 * t8 - 53248) / q - (1
        / 25740) * Real.pi * (-165 * t4 + 1170 * t3 - 2808 * t2 + 2288 * t1 - 53248 * q + 36) / t5
  else
    (2047 / 715) * Real.pi / t5

/-- sphkernels.hpp:1839-1919: class `KernelDefM4DoubleHump7`. -/
noncomputable def kernel : KernelDef :=
  { Rkern := Rkern, hfactd := hfactd, norm_1d := norm_1d, norm_2d := norm_2d, norm_3d := norm_3d,
      f := f,
    df := df, ddf := ddf, phi_tilde_3d := phi_tilde_3d, phi_tilde_3d_prime := phi_tilde_3d_prime }

end M4DoubleHump7

namespace M4Shift2

/-- sphkernels.hpp:1924. -/
noncomputable def Rkern : ℝ := 2

/-- sphkernels.hpp:1926. -/
noncomputable def hfactd : ℝ := (12 / 10)

/-- sphkernels.hpp:1929. -/
noncomputable def norm_1d : ℝ := 4 / 11

/-- sphkernels.hpp:1931. -/
noncomputable def norm_2d : ℝ := (40 / 77) / Real.pi

/-- sphkernels.hpp:1933. -/
noncomputable def norm_3d : ℝ := (120 / 439) / Real.pi

/-- sphkernels.hpp:1935-1940. -/
noncomputable def f (q : ℝ) : ℝ :=
  if q < 1 then
    1
  else
    M4.f ((q - 1) * 2)

/-- sphkernels.hpp:1943-1948. -/
noncomputable def df (q : ℝ) : ℝ :=
  if q < 1 then
    0
  else
    2 * M4.df ((q - 1) * 2)

/-- sphkernels.hpp:1951-1956. -/
noncomputable def ddf (q : ℝ) : ℝ :=
  if q < 1 then
    0
  else
    4 * M4.ddf ((q - 1) * 2)

/-- sphkernels.hpp:1959-1975. -/
noncomputable def phi_tilde_3d (q : ℝ) : ℝ :=
  let t1 : ℝ := (q) ^ 2
  let t2 : ℝ := (q) ^ 3
  let t3 : ℝ := (q) ^ 4
  let t4 : ℝ := (q) ^ 5
  let t5 : ℝ := (q) ^ 6
  if q < 1 then
    (1 / 60) * Real.pi * (40 * t1 - 231)
  else if q < 3 / 2 then
    (1 / 60) * Real.pi * (48 * t5 - 288 * t4 + 600 * t3 - 440 * t2 - 39 * q - 72) / q
  else if q < 2 then
    (1 / 120) * Real.pi * (-32 * t5 + 288 * t4 - 960 * t3 + 1280 * t2 - 1536 * q + 585) / q
  else
    -(439 / 120) * Real.pi / q

/-- sphkernels.hpp:1977-1997. -/
noncomputable def phi_tilde_3d_prime (q : ℝ) : ℝ :=
  let t1 : ℝ := (q) ^ 2
  let t2 : ℝ := (q) ^ 3
  let t3 : ℝ := (q) ^ 4
  let t4 : ℝ := (q) ^ 5
  let t5 : ℝ := (q) ^ 6
  if q < 1 then
    (4 / 3) * Real.pi * q
  else if q < 3 / 2 then
    (1 / 60) * Real.pi * (288 * t4 - 1440 * t3 + 2400 * t2 - 1320 * t1 - 39) / q - (1 / 60) *
        Real.pi * (48 * t5 - 288 * t4 + 600 * t3 - 440 * t2 - 39 * q - 72) / t1
  else if q < 2 then
    (1 / 120) * Real.pi * (-192 * t4 + 1440 * t3 - 3840 * t2 + 3840 * t1 - 1536) / q - (1 / 120)
        * Real.pi * (-32 * t5 + 288 * t4 - 960 * t3 + 1280 * t2 - 1536 * q + 585) / t1
  else
    (439 / 120) * Real.pi / t1

/-- sphkernels.hpp:1921-1998: class `KernelDefM4Shift2`. -/
noncomputable def kernel : KernelDef :=
  { Rkern := Rkern, hfactd := hfactd, norm_1d := norm_1d, norm_2d := norm_2d, norm_3d := norm_3d,
      f := f,
    df := df, ddf := ddf, phi_tilde_3d := phi_tilde_3d, phi_tilde_3d_prime := phi_tilde_3d_prime }

end M4Shift2

namespace M4Shift4

/-- sphkernels.hpp:2003. -/
noncomputable def Rkern : ℝ := 2

/-- sphkernels.hpp:2005. -/
noncomputable def hfactd : ℝ := (12 / 10)

/-- sphkernels.hpp:2008. -/
noncomputable def norm_1d : ℝ := 8 / 27

/-- sphkernels.hpp:2010. -/
noncomputable def norm_2d : ℝ := (160 / 457) / Real.pi

/-- sphkernels.hpp:2012. -/
noncomputable def norm_3d : ℝ := (320 / 2069) / Real.pi

/-- sphkernels.hpp:2014-2019. -/
noncomputable def f (q : ℝ) : ℝ :=
  if q < (15 / 10) then
    1
  else
    M4.f ((q - (15 / 10)) * 4)

/-- sphkernels.hpp:2022-2027. -/
noncomputable def df (q : ℝ) : ℝ :=
  if q < (15 / 10) then
    0
  else
    4 * M4.df ((q - (15 / 10)) * 4)

/-- sphkernels.hpp:2030-2035. -/
noncomputable def ddf (q : ℝ) : ℝ :=
  if q < (15 / 10) then
    0
  else
    16 * M4.ddf ((q - (15 / 10)) * 4)

/-- sphkernels.hpp:2038-2055. -/
noncomputable def phi_tilde_3d (q : ℝ) : ℝ :=
  let t1 : ℝ := (q) ^ 2
  let t2 : ℝ := (q) ^ 3
  let t3 : ℝ := (q) ^ 4
  let t4 : ℝ := (q) ^ 5
  let t5 : ℝ := (q) ^ 6
  if q < 3 / 2 then
    (1 / 240) * Real.pi * (160 * t1 - 1371)
  else if q < 7 / 4 then
    (1 / 240) * Real.pi * (1536 * t5 - 11520 * t4 + 31680 * t3 - 34400 * t2 + 25845 * q - 14580)
        / q
  else if q < 2 then
    (1 / 960) * Real.pi * (-2048 * t5 + 18432 * t4 - 61440 * t3 + 81920 * t2 - 98304 * q + 59329)
        / q
  else
    -(2069 / 320) * Real.pi / q

/-- sphkernels.hpp:2057-2081. -/
noncomputable def phi_tilde_3d_prime (q : ℝ) : ℝ :=
  let t1 : ℝ := (q) ^ 2
  let t2 : ℝ := (q) ^ 3
  let t3 : ℝ := (q) ^ 4
  let t4 : ℝ := (q) ^ 5
  let t5 : ℝ := (q) ^ 6
  if q < 3 / 2 then
    (4 / 3) * Real.pi * q
  else if q < 7 / 4 then
    (1 / 240) * Real.pi * (9216 * t4 - 57600 * t3 + 126720 * t2 - 103200 * t1 + 25845) / q - (1 /
        240) * Real.pi * (1536 * t5 - 11520 * t4 + 31680 * t3 - 34400 * t2 + 25845 * q - 14580) /
        t1
  else if q < 2 then
    (1 / 960) * Real.pi * (-12288 * t4 + 92160 * t3 - 245760 * t2 + 245760 * t1 - 98304) / q - (1
        / 960) * Real.pi * (-2048 * t5 + 18432 * t4 - 61440 * t3 + 81920 * t2 - 98304 * q +
        59329) / t1
  else
    (2069 / 320) * Real.pi / t1

/-- sphkernels.hpp:2000-2082: class `KernelDefM4Shift4`. -/
noncomputable def kernel : KernelDef :=
  { Rkern := Rkern, hfactd := hfactd, norm_1d := norm_1d, norm_2d := norm_2d, norm_3d := norm_3d,
      f := f,
    df := df, ddf := ddf, phi_tilde_3d := phi_tilde_3d, phi_tilde_3d_prime := phi_tilde_3d_prime }

end M4Shift4

namespace M4Shift8

/-- sphkernels.hpp:2087. -/
noncomputable def Rkern : ℝ := 2

/-- sphkernels.hpp:2089. -/
noncomputable def hfactd : ℝ := (12 / 10)

/-- sphkernels.hpp:2092. -/
noncomputable def norm_1d : ℝ := 16 / 59

/-- sphkernels.hpp:2094. -/
noncomputable def norm_2d : ℝ := (640 / 2177) / Real.pi

/-- sphkernels.hpp:2096. -/
noncomputable def norm_3d : ℝ := (7680 / 64303) / Real.pi

/-- sphkernels.hpp:2098-2103. -/
noncomputable def f (q : ℝ) : ℝ :=
  if q < (175 / 100) then
    1
  else
    M4.f ((q - (175 / 100)) * 8)

/-- sphkernels.hpp:2106-2111. -/
noncomputable def df (q : ℝ) : ℝ :=
  if q < (175 / 100) then
    0
  else
    8 * M4.df ((q - (175 / 100)) * 8)

/-- sphkernels.hpp:2114-2119. -/
noncomputable def ddf (q : ℝ) : ℝ :=
  if q < (175 / 100) then
    0
  else
    64 * M4.ddf ((q - (175 / 100)) * 8)

/-- sphkernels.hpp:2122-2142. -/
noncomputable def phi_tilde_3d (q : ℝ) : ℝ :=
  let t1 : ℝ := (q) ^ 2
  let t2 : ℝ := (q) ^ 3
  let t3 : ℝ := (q) ^ 4
  let t4 : ℝ := (q) ^ 5
  let t5 : ℝ := (q) ^ 6
  if q < 7 / 4 then
    (1 / 960) * Real.pi * (640 * t1 - 6531)
  else if q < 15 / 8 then
    (1 / 960) * Real.pi * (49152 * t5 - 405504 * t4 + 1236480 * t3 - 1504640 * t2 + 1491693 * q -
        907578) / q
  else if q < 2 then
    (1 / 7680) * Real.pi * (-131072 * t5 + 1179648 * t4 - 3932160 * t3 + 5242880 * t2 - 6291456 *
        q + 4130001) / q
  else
    -(64303 / 7680) * Real.pi / q

/-- sphkernels.hpp:2144-2170. -/
noncomputable def phi_tilde_3d_prime (q : ℝ) : ℝ :=
  let t1 : ℝ := (q) ^ 2
  let t2 : ℝ := (q) ^ 3
  let t3 : ℝ := (q) ^ 4
  let t4 : ℝ := (q) ^ 5
  let t5 : ℝ := (q) ^ 6
  if q < 7 / 4 then
    (4 / 3) * Real.pi * q
  else if q < 15 / 8 then
    (1 / 960) * Real.pi * (294912 * t4 - 2027520 * t3 + 4945920 * t2 - 4513920 * t1 + 1491693) /
        q - (1 / 960) * Real.pi * (49152 * t5 - 405504 * t4 + 1236480 * t3 - 1504640 * t2 +
        1491693 * q - 907578) / t1
  else if q < 2 then
    (1 / 7680) * Real.pi * (-786432 * t4 + 5898240 * t3 - 15728640 * t2 + 15728640 * t1 -
        6291456) / q - (1 / 7680) * Real.pi * (-131072 * t5 + 1179648 * t4 - 3932160 * t3 +
        5242880 * t2 - 6291456 * q + 4130001) / t1
  else
    (64303 / 7680) * Real.pi / t1

/-- sphkernels.hpp:2084-2171: class `KernelDefM4Shift8`. -/
noncomputable def kernel : KernelDef :=
  { Rkern := Rkern, hfactd := hfactd, norm_1d := norm_1d, norm_2d := norm_2d, norm_3d := norm_3d,
      f := f,
    df := df, ddf := ddf, phi_tilde_3d := phi_tilde_3d, phi_tilde_3d_prime := phi_tilde_3d_prime }

end M4Shift8

namespace M4Shift16

/-- sphkernels.hpp:2176. -/
noncomputable def Rkern : ℝ := 2

/-- sphkernels.hpp:2178. -/
noncomputable def hfactd : ℝ := (12 / 10)

/-- sphkernels.hpp:2181. -/
noncomputable def norm_1d : ℝ := 32 / 123

/-- sphkernels.hpp:2183. -/
noncomputable def norm_2d : ℝ := (2560 / 9457) / Real.pi

/-- sphkernels.hpp:2185. -/
noncomputable def norm_3d : ℝ := (4096 / 38785) / Real.pi

/-- sphkernels.hpp:2187-2192. -/
noncomputable def f (q : ℝ) : ℝ :=
  if q < (1875 / 1000) then
    1
  else
    M4.f ((q - (1875 / 1000)) * 16)

/-- sphkernels.hpp:2195-2200. -/
noncomputable def df (q : ℝ) : ℝ :=
  if q < (1875 / 1000) then
    0
  else
    16 * M4.df ((q - (1875 / 1000)) * 16)

/-- sphkernels.hpp:2203-2208. -/
noncomputable def ddf (q : ℝ) : ℝ :=
  if q < (1875 / 1000) then
    0
  else
    256 * M4.ddf ((q - (1875 / 1000)) * 16)

/-- sphkernels.hpp:2211-2231. -/
noncomputable def phi_tilde_3d (q : ℝ) : ℝ :=
  let t1 : ℝ := (q) ^ 2
  let t2 : ℝ := (q) ^ 3
  let t3 : ℝ := (q) ^ 4
  let t4 : ℝ := (q) ^ 5
  let t5 : ℝ := (q) ^ 6
  if q < 15 / 8 then
    (1 / 3840) * Real.pi * (2560 * t1 - 28371)
  else if q < 31 / 16 then
    (1 / 3840) * Real.pi * (1572864 * t5 - 13565952 * t4 + 43315200 * t3 - 55293440 * t2 +
        60721629 * q - 38728125) / q
  else if q < 2 then
    (1 / 61440) * Real.pi * (-8388608 * t5 + 75497472 * t4 - 251658240 * t3 + 335544320 * t2 -
        402653184 * q + 267853681) / q
  else
    -(38785 / 4096) * Real.pi / q

/-- sphkernels.hpp:2233-2261. -/
noncomputable def phi_tilde_3d_prime (q : ℝ) : ℝ :=
  let t1 : ℝ := (q) ^ 2
  let t2 : ℝ := (q) ^ 3
  let t3 : ℝ := (q) ^ 4
  let t4 : ℝ := (q) ^ 5
  let t5 : ℝ := (q) ^ 6
  if q < 15 / 8 then
    (4 / 3) * Real.pi * q
  else if q < 31 / 16 then
    (1 / 3840) * Real.pi * (9437184 * t4 - 67829760 * t3 + 173260800 * t2 - 165880320 * t1 +
        60721629) / q - (1 / 3840) * Real.pi * (1572864 * t5 - 13565952 * t4 + 43315200 * t3 -
        55293440 * t2 + 60721629 * q - 38728125) / t1
  else if q < 2 then
    (1 / 61440) * Real.pi * (-50331648 * t4 + 377487360 * t3 - 1006632960 * t2 + 1006632960 * t1
        - 402653184) / q - (1 / 61440) * Real.pi * (-8388608 * t5 + 75497472 * t4 - 251658240 *
        t3 + 335544320 * t2 - 402653184 * q + 267853681) / t1
  else
    (38785 / 4096) * Real.pi / t1

/-- sphkernels.hpp:2173-2262: class `KernelDefM4Shift16`. -/
noncomputable def kernel : KernelDef :=
  { Rkern := Rkern, hfactd := hfactd, norm_1d := norm_1d, norm_2d := norm_2d, norm_3d := norm_3d,
      f := f,
    df := df, ddf := ddf, phi_tilde_3d := phi_tilde_3d, phi_tilde_3d_prime := phi_tilde_3d_prime }

end M4Shift16

/-- sphkernels.hpp:2314: `SPHKernelGen::W_1d`. -/
noncomputable def W_1d (K : KernelDef) (r h : ℝ) : ℝ :=
  K.norm_1d * K.f (r / h) / (h)

/-- sphkernels.hpp:2316-2318: `SPHKernelGen::W_2d`. -/
noncomputable def W_2d (K : KernelDef) (r h : ℝ) : ℝ :=
  K.norm_2d * K.f (r / h) / (h * h)

/-- sphkernels.hpp:2329-2331: `SPHKernelGen::W_3d`. -/
noncomputable def W_3d (K : KernelDef) (r h : ℝ) : ℝ :=
  K.norm_3d * K.f (r / h) / (h * h * h)

/-- sphkernels.hpp:2333-2335: `SPHKernelGen::dW_3d`. -/
noncomputable def dW_3d (K : KernelDef) (r h : ℝ) : ℝ :=
  K.norm_3d * K.df (r / h) / (h * h * h * h)

/-- sphkernels.hpp:2337-2339: `SPHKernelGen::ddW_3d`. -/
noncomputable def ddW_3d (K : KernelDef) (r h : ℝ) : ℝ :=
  K.norm_3d * K.ddf (r / h) / (h * h * h * h * h)

/-- sphkernels.hpp:2341-2343: `SPHKernelGen::dhW_3d`. -/
noncomputable def dhW_3d (K : KernelDef) (r h : ℝ) : ℝ :=
  -(K.norm_3d) * (3 * K.f (r / h) + (r / h) * K.df (r / h)) / (h * h * h * h)

/-- sphkernels.hpp:2377-2379: `SPHKernelGen::phi_3D`. -/
noncomputable def phi_3D (K : KernelDef) (r h : ℝ) : ℝ :=
  K.norm_3d * K.phi_tilde_3d (r / h) / h

/-- sphkernels.hpp:2381-2383: `SPHKernelGen::phi_3D_prime`. -/
noncomputable def phi_3D_prime (K : KernelDef) (r h : ℝ) : ℝ :=
  K.norm_3d * K.phi_tilde_3d_prime (r / h) / (h * h)

end Shamrock.Kern
