/-
Generated by tools/gen_fmm.py from /repo (arithmetic copied expression by expression).
-/
import Mathlib.Data.Real.Basic
import Verif.Model.Patch

/-!
Symmetric tensors of 3-space and their collections (shammath).
-/

namespace Shamrock.Fmm

open Shamrock (V3)

noncomputable section

/-- `SymTensor3d_1`: the independent components of a symmetric tensor of order 1 of
3-space, indices in increasing order.  Models `src/shammath/include/shammath/symtensors.hpp:23-29` ; real numbers for
the floating-point `T`. -/
@[ext] structure SymT1 where
  v_0 : ℝ
  v_1 : ℝ
  v_2 : ℝ

/-- Models `src/shammath/include/shammath/symtensors.hpp:31-33`. -/
def SymT1.inner1 (s : SymT1) (t : SymT1) : ℝ :=
    s.v_0 * t.v_0 + s.v_1 * t.v_1 + s.v_2 * t.v_2

/-- Models `src/shammath/include/shammath/symtensors.hpp:35-37`. -/
def SymT1.inner0 (s : SymT1) (scal : ℝ) : SymT1 :=
    ⟨s.v_0 * scal,
    s.v_1 * scal,
    s.v_2 * scal⟩

/-- Models `src/shammath/include/shammath/symtensors.hpp:39-46`. -/
def SymT1.mulAssign (s : SymT1) (scal : ℝ) : SymT1 :=
    ⟨s.v_0 * scal,
    s.v_1 * scal,
    s.v_2 * scal⟩

/-- Models `src/shammath/include/shammath/symtensors.hpp:48-54`. -/
def SymT1.smul (s : SymT1) (scal : ℝ) : SymT1 :=
    ⟨s.v_0 * scal,
    s.v_1 * scal,
    s.v_2 * scal⟩

/-- Models `src/shammath/include/shammath/symtensors.hpp:56-63`. -/
def SymT1.addAssign (s : SymT1) (other : SymT1) : SymT1 :=
    ⟨s.v_0 + other.v_0,
    s.v_1 + other.v_1,
    s.v_2 + other.v_2⟩

/-- Models `src/shammath/include/shammath/symtensors.hpp:65-67`. -/
def SymT1.plus (s : SymT1) (t2 : SymT1) : SymT1 :=
    ⟨s.v_0 + t2.v_0,
    s.v_1 + t2.v_1,
    s.v_2 + t2.v_2⟩

/-- Models `src/shammath/include/shammath/symtensors.hpp:69-71`. -/
def SymT1.minus (s : SymT1) (t2 : SymT1) : SymT1 :=
    ⟨s.v_0 - t2.v_0,
    s.v_1 - t2.v_1,
    s.v_2 - t2.v_2⟩

/-- `SymTensor3d_2`: the independent components of a symmetric tensor of order 2 of
3-space, indices in increasing order.  Models `src/shammath/include/shammath/symtensors.hpp:91-100` ; real numbers for
the floating-point `T`. -/
@[ext] structure SymT2 where
  v_00 : ℝ
  v_01 : ℝ
  v_02 : ℝ
  v_11 : ℝ
  v_12 : ℝ
  v_22 : ℝ

/-- Models `src/shammath/include/shammath/symtensors.hpp:102-105`. -/
def SymT2.inner2 (s : SymT2) (t : SymT2) : ℝ :=
    s.v_00 * t.v_00 + 2 * s.v_01 * t.v_01 + 2 * s.v_02 * t.v_02 + s.v_11 * t.v_11 + 2 *
    s.v_12 * t.v_12 + s.v_22 * t.v_22

/-- Models `src/shammath/include/shammath/symtensors.hpp:107-112`. -/
def SymT2.inner1 (s : SymT2) (t : SymT1) : SymT1 :=
    ⟨s.v_00 * t.v_0 + s.v_01 * t.v_1 + s.v_02 * t.v_2,
    s.v_01 * t.v_0 + s.v_11 * t.v_1 + s.v_12 * t.v_2,
    s.v_02 * t.v_0 + s.v_12 * t.v_1 + s.v_22 * t.v_2⟩

/-- Models `src/shammath/include/shammath/symtensors.hpp:114-117`. -/
def SymT2.inner0 (s : SymT2) (scal : ℝ) : SymT2 :=
    ⟨s.v_00 * scal,
    s.v_01 * scal,
    s.v_02 * scal,
    s.v_11 * scal,
    s.v_12 * scal,
    s.v_22 * scal⟩

/-- Models `src/shammath/include/shammath/symtensors.hpp:119-129`. -/
def SymT2.mulAssign (s : SymT2) (scal : ℝ) : SymT2 :=
    ⟨s.v_00 * scal,
    s.v_01 * scal,
    s.v_02 * scal,
    s.v_11 * scal,
    s.v_12 * scal,
    s.v_22 * scal⟩

/-- Models `src/shammath/include/shammath/symtensors.hpp:131-134`. -/
def SymT2.smul (s : SymT2) (scal : ℝ) : SymT2 :=
    ⟨s.v_00 * scal,
    s.v_01 * scal,
    s.v_02 * scal,
    s.v_11 * scal,
    s.v_12 * scal,
    s.v_22 * scal⟩

/-- Models `src/shammath/include/shammath/symtensors.hpp:136-146`. -/
def SymT2.addAssign (s : SymT2) (other : SymT2) : SymT2 :=
    ⟨s.v_00 + other.v_00,
    s.v_01 + other.v_01,
    s.v_02 + other.v_02,
    s.v_11 + other.v_11,
    s.v_12 + other.v_12,
    s.v_22 + other.v_22⟩

/-- Models `src/shammath/include/shammath/symtensors.hpp:148-156`. -/
def SymT2.plus (s : SymT2) (t2 : SymT2) : SymT2 :=
    ⟨s.v_00 + t2.v_00,
    s.v_01 + t2.v_01,
    s.v_02 + t2.v_02,
    s.v_11 + t2.v_11,
    s.v_12 + t2.v_12,
    s.v_22 + t2.v_22⟩

/-- Models `src/shammath/include/shammath/symtensors.hpp:158-166`. -/
def SymT2.minus (s : SymT2) (t2 : SymT2) : SymT2 :=
    ⟨s.v_00 - t2.v_00,
    s.v_01 - t2.v_01,
    s.v_02 - t2.v_02,
    s.v_11 - t2.v_11,
    s.v_12 - t2.v_12,
    s.v_22 - t2.v_22⟩

/-- `SymTensor3d_3`: the independent components of a symmetric tensor of order 3 of
3-space, indices in increasing order.  Models `src/shammath/include/shammath/symtensors.hpp:192-205` ; real numbers for
the floating-point `T`. -/
@[ext] structure SymT3 where
  v_000 : ℝ
  v_001 : ℝ
  v_002 : ℝ
  v_011 : ℝ
  v_012 : ℝ
  v_022 : ℝ
  v_111 : ℝ
  v_112 : ℝ
  v_122 : ℝ
  v_222 : ℝ

/-- Models `src/shammath/include/shammath/symtensors.hpp:207-211`. -/
def SymT3.inner3 (s : SymT3) (t : SymT3) : ℝ :=
    s.v_000 * t.v_000 + 3 * s.v_001 * t.v_001 + 3 * s.v_002 * t.v_002 + 3 * s.v_011 * t.v_011
    + 6 * s.v_012 * t.v_012 + 3 * s.v_022 * t.v_022 + s.v_111 * t.v_111 + 3 * s.v_112 *
    t.v_112 + 3 * s.v_122 * t.v_122 + s.v_222 * t.v_222

/-- Models `src/shammath/include/shammath/symtensors.hpp:213-221`. -/
def SymT3.inner2 (s : SymT3) (t : SymT2) : SymT1 :=
    ⟨s.v_000 * t.v_00 + 2 * s.v_001 * t.v_01 + 2 * s.v_002 * t.v_02 + s.v_011 * t.v_11 + 2 *
      s.v_012 * t.v_12 + s.v_022 * t.v_22,
    s.v_001 * t.v_00 + 2 * s.v_011 * t.v_01 + 2 * s.v_012 * t.v_02 + s.v_111 * t.v_11 + 2 *
      s.v_112 * t.v_12 + s.v_122 * t.v_22,
    s.v_002 * t.v_00 + 2 * s.v_012 * t.v_01 + 2 * s.v_022 * t.v_02 + s.v_112 * t.v_11 + 2 *
      s.v_122 * t.v_12 + s.v_222 * t.v_22⟩

/-- Models `src/shammath/include/shammath/symtensors.hpp:223-232`. -/
def SymT3.inner1 (s : SymT3) (t : SymT1) : SymT2 :=
    ⟨s.v_000 * t.v_0 + s.v_001 * t.v_1 + s.v_002 * t.v_2,
    s.v_001 * t.v_0 + s.v_011 * t.v_1 + s.v_012 * t.v_2,
    s.v_002 * t.v_0 + s.v_012 * t.v_1 + s.v_022 * t.v_2,
    s.v_011 * t.v_0 + s.v_111 * t.v_1 + s.v_112 * t.v_2,
    s.v_012 * t.v_0 + s.v_112 * t.v_1 + s.v_122 * t.v_2,
    s.v_022 * t.v_0 + s.v_122 * t.v_1 + s.v_222 * t.v_2⟩

/-- Models `src/shammath/include/shammath/symtensors.hpp:234-246`. -/
def SymT3.inner0 (s : SymT3) (scal : ℝ) : SymT3 :=
    ⟨s.v_000 * scal,
    s.v_001 * scal,
    s.v_002 * scal,
    s.v_011 * scal,
    s.v_012 * scal,
    s.v_022 * scal,
    s.v_111 * scal,
    s.v_112 * scal,
    s.v_122 * scal,
    s.v_222 * scal⟩

/-- Models `src/shammath/include/shammath/symtensors.hpp:248-262`. -/
def SymT3.mulAssign (s : SymT3) (scal : ℝ) : SymT3 :=
    ⟨s.v_000 * scal,
    s.v_001 * scal,
    s.v_002 * scal,
    s.v_011 * scal,
    s.v_012 * scal,
    s.v_022 * scal,
    s.v_111 * scal,
    s.v_112 * scal,
    s.v_122 * scal,
    s.v_222 * scal⟩

/-- Models `src/shammath/include/shammath/symtensors.hpp:264-276`. -/
def SymT3.smul (s : SymT3) (scal : ℝ) : SymT3 :=
    ⟨s.v_000 * scal,
    s.v_001 * scal,
    s.v_002 * scal,
    s.v_011 * scal,
    s.v_012 * scal,
    s.v_022 * scal,
    s.v_111 * scal,
    s.v_112 * scal,
    s.v_122 * scal,
    s.v_222 * scal⟩

/-- Models `src/shammath/include/shammath/symtensors.hpp:278-292`. -/
def SymT3.addAssign (s : SymT3) (other : SymT3) : SymT3 :=
    ⟨s.v_000 + other.v_000,
    s.v_001 + other.v_001,
    s.v_002 + other.v_002,
    s.v_011 + other.v_011,
    s.v_012 + other.v_012,
    s.v_022 + other.v_022,
    s.v_111 + other.v_111,
    s.v_112 + other.v_112,
    s.v_122 + other.v_122,
    s.v_222 + other.v_222⟩

/-- Models `src/shammath/include/shammath/symtensors.hpp:294-306`. -/
def SymT3.plus (s : SymT3) (t2 : SymT3) : SymT3 :=
    ⟨s.v_000 + t2.v_000,
    s.v_001 + t2.v_001,
    s.v_002 + t2.v_002,
    s.v_011 + t2.v_011,
    s.v_012 + t2.v_012,
    s.v_022 + t2.v_022,
    s.v_111 + t2.v_111,
    s.v_112 + t2.v_112,
    s.v_122 + t2.v_122,
    s.v_222 + t2.v_222⟩

/-- Models `src/shammath/include/shammath/symtensors.hpp:308-320`. -/
def SymT3.minus (s : SymT3) (t2 : SymT3) : SymT3 :=
    ⟨s.v_000 - t2.v_000,
    s.v_001 - t2.v_001,
    s.v_002 - t2.v_002,
    s.v_011 - t2.v_011,
    s.v_012 - t2.v_012,
    s.v_022 - t2.v_022,
    s.v_111 - t2.v_111,
    s.v_112 - t2.v_112,
    s.v_122 - t2.v_122,
    s.v_222 - t2.v_222⟩

/-- `SymTensor3d_4`: the independent components of a symmetric tensor of order 4 of
3-space, indices in increasing order.  Models `src/shammath/include/shammath/symtensors.hpp:354-372` ; real numbers for
the floating-point `T`. -/
@[ext] structure SymT4 where
  v_0000 : ℝ
  v_0001 : ℝ
  v_0002 : ℝ
  v_0011 : ℝ
  v_0012 : ℝ
  v_0022 : ℝ
  v_0111 : ℝ
  v_0112 : ℝ
  v_0122 : ℝ
  v_0222 : ℝ
  v_1111 : ℝ
  v_1112 : ℝ
  v_1122 : ℝ
  v_1222 : ℝ
  v_2222 : ℝ

/-- Models `src/shammath/include/shammath/symtensors.hpp:374-380`. -/
def SymT4.inner4 (s : SymT4) (t : SymT4) : ℝ :=
    s.v_0000 * t.v_0000 + 4 * s.v_0001 * t.v_0001 + 4 * s.v_0002 * t.v_0002 + 6 * s.v_0011 *
    t.v_0011 + 12 * s.v_0012 * t.v_0012 + 6 * s.v_0022 * t.v_0022 + 4 * s.v_0111 *
    t.v_0111 + 12 * s.v_0112 * t.v_0112 + 12 * s.v_0122 * t.v_0122 + 4 * s.v_0222 *
    t.v_0222 + s.v_1111 * t.v_1111 + 4 * s.v_1112 * t.v_1112 + 6 * s.v_1122 * t.v_1122 +
    4 * s.v_1222 * t.v_1222 + s.v_2222 * t.v_2222

/-- Models `src/shammath/include/shammath/symtensors.hpp:382-396`. -/
def SymT4.inner3 (s : SymT4) (t : SymT3) : SymT1 :=
    ⟨s.v_0000 * t.v_000 + 3 * s.v_0001 * t.v_001 + 3 * s.v_0002 * t.v_002 + 3 * s.v_0011 *
      t.v_011 + 6 * s.v_0012 * t.v_012 + 3 * s.v_0022 * t.v_022 + s.v_0111 * t.v_111 + 3
      * s.v_0112 * t.v_112 + 3 * s.v_0122 * t.v_122 + s.v_0222 * t.v_222,
    s.v_0001 * t.v_000 + 3 * s.v_0011 * t.v_001 + 3 * s.v_0012 * t.v_002 + 3 * s.v_0111 *
      t.v_011 + 6 * s.v_0112 * t.v_012 + 3 * s.v_0122 * t.v_022 + s.v_1111 * t.v_111 + 3
      * s.v_1112 * t.v_112 + 3 * s.v_1122 * t.v_122 + s.v_1222 * t.v_222,
    s.v_0002 * t.v_000 + 3 * s.v_0012 * t.v_001 + 3 * s.v_0022 * t.v_002 + 3 * s.v_0112 *
      t.v_011 + 6 * s.v_0122 * t.v_012 + 3 * s.v_0222 * t.v_022 + s.v_1112 * t.v_111 + 3
      * s.v_1122 * t.v_112 + 3 * s.v_1222 * t.v_122 + s.v_2222 * t.v_222⟩

/-- Models `src/shammath/include/shammath/symtensors.hpp:398-413`. -/
def SymT4.inner2 (s : SymT4) (t : SymT2) : SymT2 :=
    ⟨s.v_0000 * t.v_00 + 2 * s.v_0001 * t.v_01 + 2 * s.v_0002 * t.v_02 + s.v_0011 * t.v_11 + 2
      * s.v_0012 * t.v_12 + s.v_0022 * t.v_22,
    s.v_0001 * t.v_00 + 2 * s.v_0011 * t.v_01 + 2 * s.v_0012 * t.v_02 + s.v_0111 * t.v_11 + 2
      * s.v_0112 * t.v_12 + s.v_0122 * t.v_22,
    s.v_0002 * t.v_00 + 2 * s.v_0012 * t.v_01 + 2 * s.v_0022 * t.v_02 + s.v_0112 * t.v_11 + 2
      * s.v_0122 * t.v_12 + s.v_0222 * t.v_22,
    s.v_0011 * t.v_00 + 2 * s.v_0111 * t.v_01 + 2 * s.v_0112 * t.v_02 + s.v_1111 * t.v_11 + 2
      * s.v_1112 * t.v_12 + s.v_1122 * t.v_22,
    s.v_0012 * t.v_00 + 2 * s.v_0112 * t.v_01 + 2 * s.v_0122 * t.v_02 + s.v_1112 * t.v_11 + 2
      * s.v_1122 * t.v_12 + s.v_1222 * t.v_22,
    s.v_0022 * t.v_00 + 2 * s.v_0122 * t.v_01 + 2 * s.v_0222 * t.v_02 + s.v_1122 * t.v_11 + 2
      * s.v_1222 * t.v_12 + s.v_2222 * t.v_22⟩

/-- Models `src/shammath/include/shammath/symtensors.hpp:415-427`. -/
def SymT4.inner1 (s : SymT4) (t : SymT1) : SymT3 :=
    ⟨s.v_0000 * t.v_0 + s.v_0001 * t.v_1 + s.v_0002 * t.v_2,
    s.v_0001 * t.v_0 + s.v_0011 * t.v_1 + s.v_0012 * t.v_2,
    s.v_0002 * t.v_0 + s.v_0012 * t.v_1 + s.v_0022 * t.v_2,
    s.v_0011 * t.v_0 + s.v_0111 * t.v_1 + s.v_0112 * t.v_2,
    s.v_0012 * t.v_0 + s.v_0112 * t.v_1 + s.v_0122 * t.v_2,
    s.v_0022 * t.v_0 + s.v_0122 * t.v_1 + s.v_0222 * t.v_2,
    s.v_0111 * t.v_0 + s.v_1111 * t.v_1 + s.v_1112 * t.v_2,
    s.v_0112 * t.v_0 + s.v_1112 * t.v_1 + s.v_1122 * t.v_2,
    s.v_0122 * t.v_0 + s.v_1122 * t.v_1 + s.v_1222 * t.v_2,
    s.v_0222 * t.v_0 + s.v_1222 * t.v_1 + s.v_2222 * t.v_2⟩

/-- Models `src/shammath/include/shammath/symtensors.hpp:429-446`. -/
def SymT4.inner0 (s : SymT4) (scal : ℝ) : SymT4 :=
    ⟨s.v_0000 * scal,
    s.v_0001 * scal,
    s.v_0002 * scal,
    s.v_0011 * scal,
    s.v_0012 * scal,
    s.v_0022 * scal,
    s.v_0111 * scal,
    s.v_0112 * scal,
    s.v_0122 * scal,
    s.v_0222 * scal,
    s.v_1111 * scal,
    s.v_1112 * scal,
    s.v_1122 * scal,
    s.v_1222 * scal,
    s.v_2222 * scal⟩

/-- Models `src/shammath/include/shammath/symtensors.hpp:448-467`. -/
def SymT4.mulAssign (s : SymT4) (scal : ℝ) : SymT4 :=
    ⟨s.v_0000 * scal,
    s.v_0001 * scal,
    s.v_0002 * scal,
    s.v_0011 * scal,
    s.v_0012 * scal,
    s.v_0022 * scal,
    s.v_0111 * scal,
    s.v_0112 * scal,
    s.v_0122 * scal,
    s.v_0222 * scal,
    s.v_1111 * scal,
    s.v_1112 * scal,
    s.v_1122 * scal,
    s.v_1222 * scal,
    s.v_2222 * scal⟩

/-- Models `src/shammath/include/shammath/symtensors.hpp:469-486`. -/
def SymT4.smul (s : SymT4) (scal : ℝ) : SymT4 :=
    ⟨s.v_0000 * scal,
    s.v_0001 * scal,
    s.v_0002 * scal,
    s.v_0011 * scal,
    s.v_0012 * scal,
    s.v_0022 * scal,
    s.v_0111 * scal,
    s.v_0112 * scal,
    s.v_0122 * scal,
    s.v_0222 * scal,
    s.v_1111 * scal,
    s.v_1112 * scal,
    s.v_1122 * scal,
    s.v_1222 * scal,
    s.v_2222 * scal⟩

/-- Models `src/shammath/include/shammath/symtensors.hpp:488-507`. -/
def SymT4.addAssign (s : SymT4) (other : SymT4) : SymT4 :=
    ⟨s.v_0000 + other.v_0000,
    s.v_0001 + other.v_0001,
    s.v_0002 + other.v_0002,
    s.v_0011 + other.v_0011,
    s.v_0012 + other.v_0012,
    s.v_0022 + other.v_0022,
    s.v_0111 + other.v_0111,
    s.v_0112 + other.v_0112,
    s.v_0122 + other.v_0122,
    s.v_0222 + other.v_0222,
    s.v_1111 + other.v_1111,
    s.v_1112 + other.v_1112,
    s.v_1122 + other.v_1122,
    s.v_1222 + other.v_1222,
    s.v_2222 + other.v_2222⟩

/-- Models `src/shammath/include/shammath/symtensors.hpp:509-526`. -/
def SymT4.plus (s : SymT4) (t2 : SymT4) : SymT4 :=
    ⟨s.v_0000 + t2.v_0000,
    s.v_0001 + t2.v_0001,
    s.v_0002 + t2.v_0002,
    s.v_0011 + t2.v_0011,
    s.v_0012 + t2.v_0012,
    s.v_0022 + t2.v_0022,
    s.v_0111 + t2.v_0111,
    s.v_0112 + t2.v_0112,
    s.v_0122 + t2.v_0122,
    s.v_0222 + t2.v_0222,
    s.v_1111 + t2.v_1111,
    s.v_1112 + t2.v_1112,
    s.v_1122 + t2.v_1122,
    s.v_1222 + t2.v_1222,
    s.v_2222 + t2.v_2222⟩

/-- Models `src/shammath/include/shammath/symtensors.hpp:528-545`. -/
def SymT4.minus (s : SymT4) (t2 : SymT4) : SymT4 :=
    ⟨s.v_0000 - t2.v_0000,
    s.v_0001 - t2.v_0001,
    s.v_0002 - t2.v_0002,
    s.v_0011 - t2.v_0011,
    s.v_0012 - t2.v_0012,
    s.v_0022 - t2.v_0022,
    s.v_0111 - t2.v_0111,
    s.v_0112 - t2.v_0112,
    s.v_0122 - t2.v_0122,
    s.v_0222 - t2.v_0222,
    s.v_1111 - t2.v_1111,
    s.v_1112 - t2.v_1112,
    s.v_1122 - t2.v_1122,
    s.v_1222 - t2.v_1222,
    s.v_2222 - t2.v_2222⟩

/-- `SymTensor3d_5`: the independent components of a symmetric tensor of order 5 of
3-space, indices in increasing order.  Models `src/shammath/include/shammath/symtensors.hpp:589-613` ; real numbers for
the floating-point `T`. -/
@[ext] structure SymT5 where
  v_00000 : ℝ
  v_00001 : ℝ
  v_00002 : ℝ
  v_00011 : ℝ
  v_00012 : ℝ
  v_00022 : ℝ
  v_00111 : ℝ
  v_00112 : ℝ
  v_00122 : ℝ
  v_00222 : ℝ
  v_01111 : ℝ
  v_01112 : ℝ
  v_01122 : ℝ
  v_01222 : ℝ
  v_02222 : ℝ
  v_11111 : ℝ
  v_11112 : ℝ
  v_11122 : ℝ
  v_11222 : ℝ
  v_12222 : ℝ
  v_22222 : ℝ

/-- Models `src/shammath/include/shammath/symtensors.hpp:615-626`. -/
def SymT5.inner5 (s : SymT5) (t : SymT5) : ℝ :=
    s.v_00000 * t.v_00000 + 5 * s.v_00001 * t.v_00001 + 5 * s.v_00002 * t.v_00002 + 10 *
    s.v_00011 * t.v_00011 + 20 * s.v_00012 * t.v_00012 + 10 * s.v_00022 * t.v_00022 + 10
    * s.v_00111 * t.v_00111 + 30 * s.v_00112 * t.v_00112 + 30 * s.v_00122 * t.v_00122 +
    10 * s.v_00222 * t.v_00222 + 5 * s.v_01111 * t.v_01111 + 20 * s.v_01112 * t.v_01112 +
    30 * s.v_01122 * t.v_01122 + 20 * s.v_01222 * t.v_01222 + 5 * s.v_02222 * t.v_02222 +
    s.v_11111 * t.v_11111 + 5 * (s.v_11112 * t.v_11112 + 2 * s.v_11122 * t.v_11122 + 2 *
    s.v_11222 * t.v_11222 + s.v_12222 * t.v_12222) + s.v_22222 * t.v_22222

/-- Models `src/shammath/include/shammath/symtensors.hpp:628-645`. -/
def SymT5.inner4 (s : SymT5) (t : SymT4) : SymT1 :=
    ⟨s.v_00000 * t.v_0000 + 4 * s.v_00001 * t.v_0001 + 4 * s.v_00002 * t.v_0002 + 6 *
      s.v_00011 * t.v_0011 + 12 * s.v_00012 * t.v_0012 + 6 * s.v_00022 * t.v_0022 + 4 *
      s.v_00111 * t.v_0111 + 12 * s.v_00112 * t.v_0112 + 12 * s.v_00122 * t.v_0122 + 4 *
      s.v_00222 * t.v_0222 + s.v_01111 * t.v_1111 + 4 * s.v_01112 * t.v_1112 + 6 *
      s.v_01122 * t.v_1122 + 4 * s.v_01222 * t.v_1222 + s.v_02222 * t.v_2222,
    s.v_00001 * t.v_0000 + 4 * s.v_00011 * t.v_0001 + 4 * s.v_00012 * t.v_0002 + 6 *
      s.v_00111 * t.v_0011 + 12 * s.v_00112 * t.v_0012 + 6 * s.v_00122 * t.v_0022 + 4 *
      s.v_01111 * t.v_0111 + 12 * s.v_01112 * t.v_0112 + 12 * s.v_01122 * t.v_0122 + 4 *
      s.v_01222 * t.v_0222 + s.v_11111 * t.v_1111 + 4 * s.v_11112 * t.v_1112 + 6 *
      s.v_11122 * t.v_1122 + 4 * s.v_11222 * t.v_1222 + s.v_12222 * t.v_2222,
    s.v_00002 * t.v_0000 + 4 * s.v_00012 * t.v_0001 + 4 * s.v_00022 * t.v_0002 + 6 *
      s.v_00112 * t.v_0011 + 12 * s.v_00122 * t.v_0012 + 6 * s.v_00222 * t.v_0022 + 4 *
      s.v_01112 * t.v_0111 + 12 * s.v_01122 * t.v_0112 + 12 * s.v_01222 * t.v_0122 + 4 *
      s.v_02222 * t.v_0222 + s.v_11112 * t.v_1111 + 4 * s.v_11122 * t.v_1112 + 6 *
      s.v_11222 * t.v_1122 + 4 * s.v_12222 * t.v_1222 + s.v_22222 * t.v_2222⟩

/-- Models `src/shammath/include/shammath/symtensors.hpp:647-673`. -/
def SymT5.inner3 (s : SymT5) (t : SymT3) : SymT2 :=
    ⟨s.v_00000 * t.v_000 + 3 * s.v_00001 * t.v_001 + 3 * s.v_00002 * t.v_002 + 3 * s.v_00011 *
      t.v_011 + 6 * s.v_00012 * t.v_012 + 3 * s.v_00022 * t.v_022 + s.v_00111 * t.v_111 +
      3 * s.v_00112 * t.v_112 + 3 * s.v_00122 * t.v_122 + s.v_00222 * t.v_222,
    s.v_00001 * t.v_000 + 3 * s.v_00011 * t.v_001 + 3 * s.v_00012 * t.v_002 + 3 * s.v_00111 *
      t.v_011 + 6 * s.v_00112 * t.v_012 + 3 * s.v_00122 * t.v_022 + s.v_01111 * t.v_111 +
      3 * s.v_01112 * t.v_112 + 3 * s.v_01122 * t.v_122 + s.v_01222 * t.v_222,
    s.v_00002 * t.v_000 + 3 * s.v_00012 * t.v_001 + 3 * s.v_00022 * t.v_002 + 3 * s.v_00112 *
      t.v_011 + 6 * s.v_00122 * t.v_012 + 3 * s.v_00222 * t.v_022 + s.v_01112 * t.v_111 +
      3 * s.v_01122 * t.v_112 + 3 * s.v_01222 * t.v_122 + s.v_02222 * t.v_222,
    s.v_00011 * t.v_000 + 3 * s.v_00111 * t.v_001 + 3 * s.v_00112 * t.v_002 + 3 * s.v_01111 *
      t.v_011 + 6 * s.v_01112 * t.v_012 + 3 * s.v_01122 * t.v_022 + s.v_11111 * t.v_111 +
      3 * s.v_11112 * t.v_112 + 3 * s.v_11122 * t.v_122 + s.v_11222 * t.v_222,
    s.v_00012 * t.v_000 + 3 * s.v_00112 * t.v_001 + 3 * s.v_00122 * t.v_002 + 3 * s.v_01112 *
      t.v_011 + 6 * s.v_01122 * t.v_012 + 3 * s.v_01222 * t.v_022 + s.v_11112 * t.v_111 +
      3 * s.v_11122 * t.v_112 + 3 * s.v_11222 * t.v_122 + s.v_12222 * t.v_222,
    s.v_00022 * t.v_000 + 3 * s.v_00122 * t.v_001 + 3 * s.v_00222 * t.v_002 + 3 * s.v_01122 *
      t.v_011 + 6 * s.v_01222 * t.v_012 + 3 * s.v_02222 * t.v_022 + s.v_11122 * t.v_111 +
      3 * s.v_11222 * t.v_112 + 3 * s.v_12222 * t.v_122 + s.v_22222 * t.v_222⟩

/-- Models `src/shammath/include/shammath/symtensors.hpp:675-697`. -/
def SymT5.inner2 (s : SymT5) (t : SymT2) : SymT3 :=
    ⟨s.v_00000 * t.v_00 + 2 * s.v_00001 * t.v_01 + 2 * s.v_00002 * t.v_02 + s.v_00011 * t.v_11
      + 2 * s.v_00012 * t.v_12 + s.v_00022 * t.v_22,
    s.v_00001 * t.v_00 + 2 * s.v_00011 * t.v_01 + 2 * s.v_00012 * t.v_02 + s.v_00111 * t.v_11
      + 2 * s.v_00112 * t.v_12 + s.v_00122 * t.v_22,
    s.v_00002 * t.v_00 + 2 * s.v_00012 * t.v_01 + 2 * s.v_00022 * t.v_02 + s.v_00112 * t.v_11
      + 2 * s.v_00122 * t.v_12 + s.v_00222 * t.v_22,
    s.v_00011 * t.v_00 + 2 * s.v_00111 * t.v_01 + 2 * s.v_00112 * t.v_02 + s.v_01111 * t.v_11
      + 2 * s.v_01112 * t.v_12 + s.v_01122 * t.v_22,
    s.v_00012 * t.v_00 + 2 * s.v_00112 * t.v_01 + 2 * s.v_00122 * t.v_02 + s.v_01112 * t.v_11
      + 2 * s.v_01122 * t.v_12 + s.v_01222 * t.v_22,
    s.v_00022 * t.v_00 + 2 * s.v_00122 * t.v_01 + 2 * s.v_00222 * t.v_02 + s.v_01122 * t.v_11
      + 2 * s.v_01222 * t.v_12 + s.v_02222 * t.v_22,
    s.v_00111 * t.v_00 + 2 * s.v_01111 * t.v_01 + 2 * s.v_01112 * t.v_02 + s.v_11111 * t.v_11
      + 2 * s.v_11112 * t.v_12 + s.v_11122 * t.v_22,
    s.v_00112 * t.v_00 + 2 * s.v_01112 * t.v_01 + 2 * s.v_01122 * t.v_02 + s.v_11112 * t.v_11
      + 2 * s.v_11122 * t.v_12 + s.v_11222 * t.v_22,
    s.v_00122 * t.v_00 + 2 * s.v_01122 * t.v_01 + 2 * s.v_01222 * t.v_02 + s.v_11122 * t.v_11
      + 2 * s.v_11222 * t.v_12 + s.v_12222 * t.v_22,
    s.v_00222 * t.v_00 + 2 * s.v_01222 * t.v_01 + 2 * s.v_02222 * t.v_02 + s.v_11222 * t.v_11
      + 2 * s.v_12222 * t.v_12 + s.v_22222 * t.v_22⟩

/-- Models `src/shammath/include/shammath/symtensors.hpp:699-717`. -/
def SymT5.inner1 (s : SymT5) (t : SymT1) : SymT4 :=
    ⟨s.v_00000 * t.v_0 + s.v_00001 * t.v_1 + s.v_00002 * t.v_2,
    s.v_00001 * t.v_0 + s.v_00011 * t.v_1 + s.v_00012 * t.v_2,
    s.v_00002 * t.v_0 + s.v_00012 * t.v_1 + s.v_00022 * t.v_2,
    s.v_00011 * t.v_0 + s.v_00111 * t.v_1 + s.v_00112 * t.v_2,
    s.v_00012 * t.v_0 + s.v_00112 * t.v_1 + s.v_00122 * t.v_2,
    s.v_00022 * t.v_0 + s.v_00122 * t.v_1 + s.v_00222 * t.v_2,
    s.v_00111 * t.v_0 + s.v_01111 * t.v_1 + s.v_01112 * t.v_2,
    s.v_00112 * t.v_0 + s.v_01112 * t.v_1 + s.v_01122 * t.v_2,
    s.v_00122 * t.v_0 + s.v_01122 * t.v_1 + s.v_01222 * t.v_2,
    s.v_00222 * t.v_0 + s.v_01222 * t.v_1 + s.v_02222 * t.v_2,
    s.v_01111 * t.v_0 + s.v_11111 * t.v_1 + s.v_11112 * t.v_2,
    s.v_01112 * t.v_0 + s.v_11112 * t.v_1 + s.v_11122 * t.v_2,
    s.v_01122 * t.v_0 + s.v_11122 * t.v_1 + s.v_11222 * t.v_2,
    s.v_01222 * t.v_0 + s.v_11222 * t.v_1 + s.v_12222 * t.v_2,
    s.v_02222 * t.v_0 + s.v_12222 * t.v_1 + s.v_22222 * t.v_2⟩

/-- Models `src/shammath/include/shammath/symtensors.hpp:719-726`. -/
def SymT5.inner0 (s : SymT5) (scal : ℝ) : SymT5 :=
    ⟨s.v_00000 * scal,
    s.v_00001 * scal,
    s.v_00002 * scal,
    s.v_00011 * scal,
    s.v_00012 * scal,
    s.v_00022 * scal,
    s.v_00111 * scal,
    s.v_00112 * scal,
    s.v_00122 * scal,
    s.v_00222 * scal,
    s.v_01111 * scal,
    s.v_01112 * scal,
    s.v_01122 * scal,
    s.v_01222 * scal,
    s.v_02222 * scal,
    s.v_11111 * scal,
    s.v_11112 * scal,
    s.v_11122 * scal,
    s.v_11222 * scal,
    s.v_12222 * scal,
    s.v_22222 * scal⟩

/-- Models `src/shammath/include/shammath/symtensors.hpp:728-753`. -/
def SymT5.mulAssign (s : SymT5) (scal : ℝ) : SymT5 :=
    ⟨s.v_00000 * scal,
    s.v_00001 * scal,
    s.v_00002 * scal,
    s.v_00011 * scal,
    s.v_00012 * scal,
    s.v_00022 * scal,
    s.v_00111 * scal,
    s.v_00112 * scal,
    s.v_00122 * scal,
    s.v_00222 * scal,
    s.v_01111 * scal,
    s.v_01112 * scal,
    s.v_01122 * scal,
    s.v_01222 * scal,
    s.v_02222 * scal,
    s.v_11111 * scal,
    s.v_11112 * scal,
    s.v_11122 * scal,
    s.v_11222 * scal,
    s.v_12222 * scal,
    s.v_22222 * scal⟩

/-- Models `src/shammath/include/shammath/symtensors.hpp:755-762`. -/
def SymT5.smul (s : SymT5) (scal : ℝ) : SymT5 :=
    ⟨s.v_00000 * scal,
    s.v_00001 * scal,
    s.v_00002 * scal,
    s.v_00011 * scal,
    s.v_00012 * scal,
    s.v_00022 * scal,
    s.v_00111 * scal,
    s.v_00112 * scal,
    s.v_00122 * scal,
    s.v_00222 * scal,
    s.v_01111 * scal,
    s.v_01112 * scal,
    s.v_01122 * scal,
    s.v_01222 * scal,
    s.v_02222 * scal,
    s.v_11111 * scal,
    s.v_11112 * scal,
    s.v_11122 * scal,
    s.v_11222 * scal,
    s.v_12222 * scal,
    s.v_22222 * scal⟩

/-- Models `src/shammath/include/shammath/symtensors.hpp:764-789`. -/
def SymT5.addAssign (s : SymT5) (other : SymT5) : SymT5 :=
    ⟨s.v_00000 + other.v_00000,
    s.v_00001 + other.v_00001,
    s.v_00002 + other.v_00002,
    s.v_00011 + other.v_00011,
    s.v_00012 + other.v_00012,
    s.v_00022 + other.v_00022,
    s.v_00111 + other.v_00111,
    s.v_00112 + other.v_00112,
    s.v_00122 + other.v_00122,
    s.v_00222 + other.v_00222,
    s.v_01111 + other.v_01111,
    s.v_01112 + other.v_01112,
    s.v_01122 + other.v_01122,
    s.v_01222 + other.v_01222,
    s.v_02222 + other.v_02222,
    s.v_11111 + other.v_11111,
    s.v_11112 + other.v_11112,
    s.v_11122 + other.v_11122,
    s.v_11222 + other.v_11222,
    s.v_12222 + other.v_12222,
    s.v_22222 + other.v_22222⟩

/-- Models `src/shammath/include/shammath/symtensors.hpp:791-800`. -/
def SymT5.plus (s : SymT5) (t2 : SymT5) : SymT5 :=
    ⟨s.v_00000 + t2.v_00000,
    s.v_00001 + t2.v_00001,
    s.v_00002 + t2.v_00002,
    s.v_00011 + t2.v_00011,
    s.v_00012 + t2.v_00012,
    s.v_00022 + t2.v_00022,
    s.v_00111 + t2.v_00111,
    s.v_00112 + t2.v_00112,
    s.v_00122 + t2.v_00122,
    s.v_00222 + t2.v_00222,
    s.v_01111 + t2.v_01111,
    s.v_01112 + t2.v_01112,
    s.v_01122 + t2.v_01122,
    s.v_01222 + t2.v_01222,
    s.v_02222 + t2.v_02222,
    s.v_11111 + t2.v_11111,
    s.v_11112 + t2.v_11112,
    s.v_11122 + t2.v_11122,
    s.v_11222 + t2.v_11222,
    s.v_12222 + t2.v_12222,
    s.v_22222 + t2.v_22222⟩

/-- Models `src/shammath/include/shammath/symtensors.hpp:802-811`. -/
def SymT5.minus (s : SymT5) (t2 : SymT5) : SymT5 :=
    ⟨s.v_00000 - t2.v_00000,
    s.v_00001 - t2.v_00001,
    s.v_00002 - t2.v_00002,
    s.v_00011 - t2.v_00011,
    s.v_00012 - t2.v_00012,
    s.v_00022 - t2.v_00022,
    s.v_00111 - t2.v_00111,
    s.v_00112 - t2.v_00112,
    s.v_00122 - t2.v_00122,
    s.v_00222 - t2.v_00222,
    s.v_01111 - t2.v_01111,
    s.v_01112 - t2.v_01112,
    s.v_01122 - t2.v_01122,
    s.v_01222 - t2.v_01222,
    s.v_02222 - t2.v_02222,
    s.v_11111 - t2.v_11111,
    s.v_11112 - t2.v_11112,
    s.v_11122 - t2.v_11122,
    s.v_11222 - t2.v_11222,
    s.v_12222 - t2.v_12222,
    s.v_22222 - t2.v_22222⟩

/-! The member operators `*`, `+`, `-` of the tensor classes under their C++ notation. -/
instance : HMul SymT1 ℝ SymT1 := ⟨SymT1.smul⟩
instance : HAdd SymT1 SymT1 SymT1 := ⟨SymT1.plus⟩
instance : HSub SymT1 SymT1 SymT1 := ⟨SymT1.minus⟩
instance : HMul SymT2 ℝ SymT2 := ⟨SymT2.smul⟩
instance : HAdd SymT2 SymT2 SymT2 := ⟨SymT2.plus⟩
instance : HSub SymT2 SymT2 SymT2 := ⟨SymT2.minus⟩
instance : HMul SymT3 ℝ SymT3 := ⟨SymT3.smul⟩
instance : HAdd SymT3 SymT3 SymT3 := ⟨SymT3.plus⟩
instance : HSub SymT3 SymT3 SymT3 := ⟨SymT3.minus⟩
instance : HMul SymT4 ℝ SymT4 := ⟨SymT4.smul⟩
instance : HAdd SymT4 SymT4 SymT4 := ⟨SymT4.plus⟩
instance : HSub SymT4 SymT4 SymT4 := ⟨SymT4.minus⟩
instance : HMul SymT5 ℝ SymT5 := ⟨SymT5.smul⟩
instance : HAdd SymT5 SymT5 SymT5 := ⟨SymT5.plus⟩
instance : HSub SymT5 SymT5 SymT5 := ⟨SymT5.minus⟩

/-- Models `src/shammath/include/shammath/symtensors.hpp:852-854`. -/
def mul55 (a : SymT5) (b : SymT5) : ℝ := a.inner5 b
instance : HMul SymT5 SymT5 ℝ := ⟨mul55⟩

/-- Models `src/shammath/include/shammath/symtensors.hpp:857-859`. -/
def mul54 (a : SymT5) (b : SymT4) : SymT1 := a.inner4 b
instance : HMul SymT5 SymT4 SymT1 := ⟨mul54⟩

/-- Models `src/shammath/include/shammath/symtensors.hpp:862-864`. -/
def mul53 (a : SymT5) (b : SymT3) : SymT2 := a.inner3 b
instance : HMul SymT5 SymT3 SymT2 := ⟨mul53⟩

/-- Models `src/shammath/include/shammath/symtensors.hpp:867-869`. -/
def mul52 (a : SymT5) (b : SymT2) : SymT3 := a.inner2 b
instance : HMul SymT5 SymT2 SymT3 := ⟨mul52⟩

/-- Models `src/shammath/include/shammath/symtensors.hpp:872-874`. -/
def mul51 (a : SymT5) (b : SymT1) : SymT4 := a.inner1 b
instance : HMul SymT5 SymT1 SymT4 := ⟨mul51⟩

/-- Models `src/shammath/include/shammath/symtensors.hpp:877-879`. -/
def mul05 (a : ℝ) (b : SymT5) : SymT5 := b * a
instance : HMul ℝ SymT5 SymT5 := ⟨mul05⟩

/-- Models `src/shammath/include/shammath/symtensors.hpp:882-884`. -/
def mul15 (a : SymT1) (b : SymT5) : SymT4 := b * a
instance : HMul SymT1 SymT5 SymT4 := ⟨mul15⟩

/-- Models `src/shammath/include/shammath/symtensors.hpp:887-889`. -/
def mul25 (a : SymT2) (b : SymT5) : SymT3 := b * a
instance : HMul SymT2 SymT5 SymT3 := ⟨mul25⟩

/-- Models `src/shammath/include/shammath/symtensors.hpp:892-894`. -/
def mul35 (a : SymT3) (b : SymT5) : SymT2 := b * a
instance : HMul SymT3 SymT5 SymT2 := ⟨mul35⟩

/-- Models `src/shammath/include/shammath/symtensors.hpp:897-899`. -/
def mul45 (a : SymT4) (b : SymT5) : SymT1 := b * a
instance : HMul SymT4 SymT5 SymT1 := ⟨mul45⟩

/-- Models `src/shammath/include/shammath/symtensors.hpp:903-905`. -/
def mul44 (a : SymT4) (b : SymT4) : ℝ := a.inner4 b
instance : HMul SymT4 SymT4 ℝ := ⟨mul44⟩

/-- Models `src/shammath/include/shammath/symtensors.hpp:908-910`. -/
def mul43 (a : SymT4) (b : SymT3) : SymT1 := a.inner3 b
instance : HMul SymT4 SymT3 SymT1 := ⟨mul43⟩

/-- Models `src/shammath/include/shammath/symtensors.hpp:913-915`. -/
def mul42 (a : SymT4) (b : SymT2) : SymT2 := a.inner2 b
instance : HMul SymT4 SymT2 SymT2 := ⟨mul42⟩

/-- Models `src/shammath/include/shammath/symtensors.hpp:918-920`. -/
def mul41 (a : SymT4) (b : SymT1) : SymT3 := a.inner1 b
instance : HMul SymT4 SymT1 SymT3 := ⟨mul41⟩

/-- Models `src/shammath/include/shammath/symtensors.hpp:923-925`. -/
def mul04 (a : ℝ) (b : SymT4) : SymT4 := b * a
instance : HMul ℝ SymT4 SymT4 := ⟨mul04⟩

/-- Models `src/shammath/include/shammath/symtensors.hpp:928-930`. -/
def mul14 (a : SymT1) (b : SymT4) : SymT3 := b * a
instance : HMul SymT1 SymT4 SymT3 := ⟨mul14⟩

/-- Models `src/shammath/include/shammath/symtensors.hpp:933-935`. -/
def mul24 (a : SymT2) (b : SymT4) : SymT2 := b * a
instance : HMul SymT2 SymT4 SymT2 := ⟨mul24⟩

/-- Models `src/shammath/include/shammath/symtensors.hpp:938-940`. -/
def mul34 (a : SymT3) (b : SymT4) : SymT1 := b * a
instance : HMul SymT3 SymT4 SymT1 := ⟨mul34⟩

/-- Models `src/shammath/include/shammath/symtensors.hpp:944-946`. -/
def mul33 (a : SymT3) (b : SymT3) : ℝ := a.inner3 b
instance : HMul SymT3 SymT3 ℝ := ⟨mul33⟩

/-- Models `src/shammath/include/shammath/symtensors.hpp:948-950`. -/
def mul32 (a : SymT3) (b : SymT2) : SymT1 := a.inner2 b
instance : HMul SymT3 SymT2 SymT1 := ⟨mul32⟩

/-- Models `src/shammath/include/shammath/symtensors.hpp:952-954`. -/
def mul31 (a : SymT3) (b : SymT1) : SymT2 := a.inner1 b
instance : HMul SymT3 SymT1 SymT2 := ⟨mul31⟩

/-- Models `src/shammath/include/shammath/symtensors.hpp:957-959`. -/
def mul23 (a : SymT2) (b : SymT3) : SymT1 := b * a
instance : HMul SymT2 SymT3 SymT1 := ⟨mul23⟩

/-- Models `src/shammath/include/shammath/symtensors.hpp:961-963`. -/
def mul13 (a : SymT1) (b : SymT3) : SymT2 := b * a
instance : HMul SymT1 SymT3 SymT2 := ⟨mul13⟩

/-- Models `src/shammath/include/shammath/symtensors.hpp:965-967`. -/
def mul03 (a : ℝ) (b : SymT3) : SymT3 := b * a
instance : HMul ℝ SymT3 SymT3 := ⟨mul03⟩

/-- Models `src/shammath/include/shammath/symtensors.hpp:972-974`. -/
def mul22 (a : SymT2) (b : SymT2) : ℝ := a.inner2 b
instance : HMul SymT2 SymT2 ℝ := ⟨mul22⟩

/-- Models `src/shammath/include/shammath/symtensors.hpp:977-979`. -/
def mul21 (a : SymT2) (b : SymT1) : SymT1 := a.inner1 b
instance : HMul SymT2 SymT1 SymT1 := ⟨mul21⟩

/-- Models `src/shammath/include/shammath/symtensors.hpp:982-984`. -/
def mul12 (a : SymT1) (b : SymT2) : SymT1 := b.inner1 a
instance : HMul SymT1 SymT2 SymT1 := ⟨mul12⟩

/-- Models `src/shammath/include/shammath/symtensors.hpp:987-989`. -/
def mul02 (a : ℝ) (b : SymT2) : SymT2 := b * a
instance : HMul ℝ SymT2 SymT2 := ⟨mul02⟩

/-- Models `src/shammath/include/shammath/symtensors.hpp:994-996`. -/
def mul11 (a : SymT1) (b : SymT1) : ℝ := a.inner1 b
instance : HMul SymT1 SymT1 ℝ := ⟨mul11⟩

/-- Models `src/shammath/include/shammath/symtensors.hpp:999-1001`. -/
def mul01 (a : ℝ) (b : SymT1) : SymT1 := b * a
instance : HMul ℝ SymT1 SymT1 := ⟨mul01⟩

/-- `SymTensorCollection<T, 0, 5>`: tensors of the orders 0..5.  Models `src/shammath/include/shammath/symtensor_collections.hpp:28-35`. -/
@[ext] structure Coll05 where
  t0 : ℝ
  t1 : SymT1
  t2 : SymT2
  t3 : SymT3
  t4 : SymT4
  t5 : SymT5

/-- Models `src/shammath/include/shammath/symtensor_collections.hpp:48-98`. -/
def Coll05.from_vec (v : V3 ℝ): Coll05 :=
  let A1 : SymT1 := ⟨v.x, v.y, v.z⟩
  let A2 : SymT2 := ⟨A1.v_0 * A1.v_0, A1.v_1 * A1.v_0, A1.v_2 * A1.v_0, A1.v_1 * A1.v_1, A1.v_2 * A1.v_1,
      A1.v_2 * A1.v_2⟩
  let A3 : SymT3 := ⟨A2.v_00 * A1.v_0, A2.v_01 * A1.v_0, A2.v_02 * A1.v_0, A2.v_11 * A1.v_0, A2.v_12 * A1.v_0,
      A2.v_22 * A1.v_0, A2.v_11 * A1.v_1, A2.v_12 * A1.v_1, A2.v_22 * A1.v_1, A2.v_22 *
      A1.v_2⟩
  let A4 : SymT4 := ⟨A3.v_000 * A1.v_0, A3.v_001 * A1.v_0, A3.v_002 * A1.v_0, A3.v_011 * A1.v_0, A3.v_012 *
      A1.v_0, A3.v_022 * A1.v_0, A3.v_111 * A1.v_0, A3.v_112 * A1.v_0, A3.v_122 * A1.v_0,
      A3.v_222 * A1.v_0, A3.v_111 * A1.v_1, A3.v_112 * A1.v_1, A3.v_122 * A1.v_1,
      A3.v_222 * A1.v_1, A3.v_222 * A1.v_2⟩
  let A5 : SymT5 := ⟨A4.v_0000 * A1.v_0, A4.v_0001 * A1.v_0, A4.v_0002 * A1.v_0, A4.v_0011 * A1.v_0, A4.v_0012
      * A1.v_0, A4.v_0022 * A1.v_0, A4.v_0111 * A1.v_0, A4.v_0112 * A1.v_0, A4.v_0122 *
      A1.v_0, A4.v_0222 * A1.v_0, A4.v_1111 * A1.v_0, A4.v_1112 * A1.v_0, A4.v_1122 *
      A1.v_0, A4.v_1222 * A1.v_0, A4.v_2222 * A1.v_0, A4.v_1111 * A1.v_1, A4.v_1112 *
      A1.v_1, A4.v_1122 * A1.v_1, A4.v_1222 * A1.v_1, A4.v_2222 * A1.v_1, A4.v_2222 *
      A1.v_2⟩
  ⟨1, A1, A2, A3, A4, A5⟩

/-- Models `src/shammath/include/shammath/symtensor_collections.hpp:100-120`.
(The last members have no initialiser in the braces: value-initialised, zero.) -/
def Coll05.zeros : Coll05 :=
  let A1 : SymT1 := ⟨0, 0, 0⟩
  let A2 : SymT2 := ⟨0, 0, 0, 0, 0, 0⟩
  let A3 : SymT3 := ⟨0, 0, 0, 0, 0, 0, 0, 0, 0, 0⟩
  let A4 : SymT4 := ⟨0, 0, 0, 0, 0, 0, 0, 0, 0, 0, 0, 0, 0, 0, 0⟩
  let A5 : SymT5 := ⟨0, 0, 0, 0, 0, 0, 0, 0, 0, 0, 0, 0, 0, 0, 0, 0, 0, 0, 0, 0, 0⟩
  ⟨0, A1, A2, A3, A4, ⟨0, 0, 0, 0, 0, 0, 0, 0, 0, 0, 0, 0, 0, 0, 0, 0, 0, 0, 0, 0, 0⟩⟩

/-- Models `src/shammath/include/shammath/symtensor_collections.hpp:143-153`. -/
def Coll05.mulAssign (s : Coll05) (scal : ℝ) : Coll05 :=
  ⟨s.t0 * scal,
    s.t1.mulAssign scal,
    s.t2.mulAssign scal,
    s.t3.mulAssign scal,
    s.t4.mulAssign scal,
    s.t5.mulAssign scal⟩

/-- Models `src/shammath/include/shammath/symtensor_collections.hpp:155-165`. -/
def Coll05.addAssign (s : Coll05) (other : Coll05) : Coll05 :=
  ⟨s.t0 + other.t0,
    s.t1.addAssign other.t1,
    s.t2.addAssign other.t2,
    s.t3.addAssign other.t3,
    s.t4.addAssign other.t4,
    s.t5.addAssign other.t5⟩

/-- Models `src/shammath/include/shammath/symtensor_collections.hpp:167-176`. -/
def Coll05.minus (s : Coll05) (other : Coll05) : Coll05 :=
  ⟨s.t0 - other.t0,
    s.t1 - other.t1,
    s.t2 - other.t2,
    s.t3 - other.t3,
    s.t4 - other.t4,
    s.t5 - other.t5⟩

/-- `SymTensorCollection<T, 0, 4>`: tensors of the orders 0..4.  Models `src/shammath/include/shammath/symtensor_collections.hpp:180-186`. -/
@[ext] structure Coll04 where
  t0 : ℝ
  t1 : SymT1
  t2 : SymT2
  t3 : SymT3
  t4 : SymT4

/-- Models `src/shammath/include/shammath/symtensor_collections.hpp:197-239`. -/
def Coll04.from_vec (v : V3 ℝ): Coll04 :=
  let A1 : SymT1 := ⟨v.x, v.y, v.z⟩
  let A2 : SymT2 := ⟨A1.v_0 * A1.v_0, A1.v_1 * A1.v_0, A1.v_2 * A1.v_0, A1.v_1 * A1.v_1, A1.v_2 * A1.v_1,
      A1.v_2 * A1.v_2⟩
  let A3 : SymT3 := ⟨A2.v_00 * A1.v_0, A2.v_01 * A1.v_0, A2.v_02 * A1.v_0, A2.v_11 * A1.v_0, A2.v_12 * A1.v_0,
      A2.v_22 * A1.v_0, A2.v_11 * A1.v_1, A2.v_12 * A1.v_1, A2.v_22 * A1.v_1, A2.v_22 *
      A1.v_2⟩
  let A4 : SymT4 := ⟨A3.v_000 * A1.v_0, A3.v_001 * A1.v_0, A3.v_002 * A1.v_0, A3.v_011 * A1.v_0, A3.v_012 *
      A1.v_0, A3.v_022 * A1.v_0, A3.v_111 * A1.v_0, A3.v_112 * A1.v_0, A3.v_122 * A1.v_0,
      A3.v_222 * A1.v_0, A3.v_111 * A1.v_1, A3.v_112 * A1.v_1, A3.v_122 * A1.v_1,
      A3.v_222 * A1.v_1, A3.v_222 * A1.v_2⟩
  ⟨1, A1, A2, A3, A4⟩

/-- Models `src/shammath/include/shammath/symtensor_collections.hpp:241-258`. -/
def Coll04.zeros : Coll04 :=
  let A1 : SymT1 := ⟨0, 0, 0⟩
  let A2 : SymT2 := ⟨0, 0, 0, 0, 0, 0⟩
  let A3 : SymT3 := ⟨0, 0, 0, 0, 0, 0, 0, 0, 0, 0⟩
  let A4 : SymT4 := ⟨0, 0, 0, 0, 0, 0, 0, 0, 0, 0, 0, 0, 0, 0, 0⟩
  ⟨0, A1, A2, A3, A4⟩

/-- Models `src/shammath/include/shammath/symtensor_collections.hpp:279-288`. -/
def Coll04.mulAssign (s : Coll04) (scal : ℝ) : Coll04 :=
  ⟨s.t0 * scal,
    s.t1.mulAssign scal,
    s.t2.mulAssign scal,
    s.t3.mulAssign scal,
    s.t4.mulAssign scal⟩

/-- Models `src/shammath/include/shammath/symtensor_collections.hpp:290-299`. -/
def Coll04.addAssign (s : Coll04) (other : Coll04) : Coll04 :=
  ⟨s.t0 + other.t0,
    s.t1.addAssign other.t1,
    s.t2.addAssign other.t2,
    s.t3.addAssign other.t3,
    s.t4.addAssign other.t4⟩

/-- Models `src/shammath/include/shammath/symtensor_collections.hpp:301-304`. -/
def Coll04.minus (s : Coll04) (other : Coll04) : Coll04 :=
  ⟨s.t0 - other.t0,
    s.t1 - other.t1,
    s.t2 - other.t2,
    s.t3 - other.t3,
    s.t4 - other.t4⟩

/-- `SymTensorCollection<T, 0, 3>`: tensors of the orders 0..3.  Models `src/shammath/include/shammath/symtensor_collections.hpp:308-313`. -/
@[ext] structure Coll03 where
  t0 : ℝ
  t1 : SymT1
  t2 : SymT2
  t3 : SymT3

/-- Models `src/shammath/include/shammath/symtensor_collections.hpp:323-348`. -/
def Coll03.from_vec (v : V3 ℝ): Coll03 :=
  let A1 : SymT1 := ⟨v.x, v.y, v.z⟩
  let A2 : SymT2 := ⟨A1.v_0 * A1.v_0, A1.v_1 * A1.v_0, A1.v_2 * A1.v_0, A1.v_1 * A1.v_1, A1.v_2 * A1.v_1,
      A1.v_2 * A1.v_2⟩
  let A3 : SymT3 := ⟨A2.v_00 * A1.v_0, A2.v_01 * A1.v_0, A2.v_02 * A1.v_0, A2.v_11 * A1.v_0, A2.v_12 * A1.v_0,
      A2.v_22 * A1.v_0, A2.v_11 * A1.v_1, A2.v_12 * A1.v_1, A2.v_22 * A1.v_1, A2.v_22 *
      A1.v_2⟩
  ⟨1, A1, A2, A3⟩

/-- Models `src/shammath/include/shammath/symtensor_collections.hpp:350-365`. -/
def Coll03.zeros : Coll03 :=
  let A1 : SymT1 := ⟨0, 0, 0⟩
  let A2 : SymT2 := ⟨0, 0, 0, 0, 0, 0⟩
  let A3 : SymT3 := ⟨0, 0, 0, 0, 0, 0, 0, 0, 0, 0⟩
  ⟨0, A1, A2, A3⟩

/-- Models `src/shammath/include/shammath/symtensor_collections.hpp:384-392`. -/
def Coll03.mulAssign (s : Coll03) (scal : ℝ) : Coll03 :=
  ⟨s.t0 * scal,
    s.t1.mulAssign scal,
    s.t2.mulAssign scal,
    s.t3.mulAssign scal⟩

/-- Models `src/shammath/include/shammath/symtensor_collections.hpp:394-402`. -/
def Coll03.addAssign (s : Coll03) (other : Coll03) : Coll03 :=
  ⟨s.t0 + other.t0,
    s.t1.addAssign other.t1,
    s.t2.addAssign other.t2,
    s.t3.addAssign other.t3⟩

/-- Models `src/shammath/include/shammath/symtensor_collections.hpp:404-407`. -/
def Coll03.minus (s : Coll03) (other : Coll03) : Coll03 :=
  ⟨s.t0 - other.t0,
    s.t1 - other.t1,
    s.t2 - other.t2,
    s.t3 - other.t3⟩

/-- `SymTensorCollection<T, 0, 2>`: tensors of the orders 0..2.  Models `src/shammath/include/shammath/symtensor_collections.hpp:411-415`. -/
@[ext] structure Coll02 where
  t0 : ℝ
  t1 : SymT1
  t2 : SymT2

/-- Models `src/shammath/include/shammath/symtensor_collections.hpp:423-436`. -/
def Coll02.from_vec (v : V3 ℝ): Coll02 :=
  let A1 : SymT1 := ⟨v.x, v.y, v.z⟩
  let A2 : SymT2 := ⟨A1.v_0 * A1.v_0, A1.v_1 * A1.v_0, A1.v_2 * A1.v_0, A1.v_1 * A1.v_1, A1.v_2 * A1.v_1,
      A1.v_2 * A1.v_2⟩
  ⟨1, A1, A2⟩

/-- Models `src/shammath/include/shammath/symtensor_collections.hpp:438-451`. -/
def Coll02.zeros : Coll02 :=
  let A1 : SymT1 := ⟨0, 0, 0⟩
  let A2 : SymT2 := ⟨0, 0, 0, 0, 0, 0⟩
  ⟨0, A1, A2⟩

/-- Models `src/shammath/include/shammath/symtensor_collections.hpp:468-475`. -/
def Coll02.mulAssign (s : Coll02) (scal : ℝ) : Coll02 :=
  ⟨s.t0 * scal,
    s.t1.mulAssign scal,
    s.t2.mulAssign scal⟩

/-- Models `src/shammath/include/shammath/symtensor_collections.hpp:477-484`. -/
def Coll02.addAssign (s : Coll02) (other : Coll02) : Coll02 :=
  ⟨s.t0 + other.t0,
    s.t1.addAssign other.t1,
    s.t2.addAssign other.t2⟩

/-- Models `src/shammath/include/shammath/symtensor_collections.hpp:486-489`. -/
def Coll02.minus (s : Coll02) (other : Coll02) : Coll02 :=
  ⟨s.t0 - other.t0,
    s.t1 - other.t1,
    s.t2 - other.t2⟩

/-- `SymTensorCollection<T, 0, 1>`: tensors of the orders 0..1.  Models `src/shammath/include/shammath/symtensor_collections.hpp:493-496`. -/
@[ext] structure Coll01 where
  t0 : ℝ
  t1 : SymT1

/-- Models `src/shammath/include/shammath/symtensor_collections.hpp:502-506`. -/
def Coll01.from_vec (v : V3 ℝ): Coll01 :=
  let A1 : SymT1 := ⟨v.x, v.y, v.z⟩
  ⟨1, A1⟩

/-- Models `src/shammath/include/shammath/symtensor_collections.hpp:507-511`. -/
def Coll01.zeros : Coll01 :=
  let A1 : SymT1 := ⟨0, 0, 0⟩
  ⟨0, A1⟩

/-- Models `src/shammath/include/shammath/symtensor_collections.hpp:525-531`. -/
def Coll01.mulAssign (s : Coll01) (scal : ℝ) : Coll01 :=
  ⟨s.t0 * scal,
    s.t1.mulAssign scal⟩

/-- Models `src/shammath/include/shammath/symtensor_collections.hpp:533-539`. -/
def Coll01.addAssign (s : Coll01) (other : Coll01) : Coll01 :=
  ⟨s.t0 + other.t0,
    s.t1.addAssign other.t1⟩

/-- Models `src/shammath/include/shammath/symtensor_collections.hpp:541-544`. -/
def Coll01.minus (s : Coll01) (other : Coll01) : Coll01 :=
  ⟨s.t0 - other.t0,
    s.t1 - other.t1⟩

/-- `SymTensorCollection<T, 0, 0>`: tensors of the orders 0..0.  Models `src/shammath/include/shammath/symtensor_collections.hpp:548-550`. -/
@[ext] structure Coll00 where
  t0 : ℝ

/-- Models `src/shammath/include/shammath/symtensor_collections.hpp:553-553`. -/
def Coll00.from_vec (v : V3 ℝ): Coll00 :=
  ⟨1⟩

/-- Models `src/shammath/include/shammath/symtensor_collections.hpp:554-554`. -/
def Coll00.zeros : Coll00 :=
  ⟨0⟩

/-- Models `src/shammath/include/shammath/symtensor_collections.hpp:566-571`. -/
def Coll00.mulAssign (s : Coll00) (scal : ℝ) : Coll00 :=
  ⟨s.t0 * scal⟩

/-- Models `src/shammath/include/shammath/symtensor_collections.hpp:573-578`. -/
def Coll00.addAssign (s : Coll00) (other : Coll00) : Coll00 :=
  ⟨s.t0 + other.t0⟩

/-- Models `src/shammath/include/shammath/symtensor_collections.hpp:580-583`. -/
def Coll00.minus (s : Coll00) (other : Coll00) : Coll00 :=
  ⟨s.t0 - other.t0⟩

/-- `SymTensorCollection<T, 1, 5>`: tensors of the orders 1..5.  Models `src/shammath/include/shammath/symtensor_collections.hpp:589-595`. -/
@[ext] structure Coll15 where
  t1 : SymT1
  t2 : SymT2
  t3 : SymT3
  t4 : SymT4
  t5 : SymT5

/-- Models `src/shammath/include/shammath/symtensor_collections.hpp:608-658`. -/
def Coll15.from_vec (v : V3 ℝ): Coll15 :=
  let A1 : SymT1 := ⟨v.x, v.y, v.z⟩
  let A2 : SymT2 := ⟨A1.v_0 * A1.v_0, A1.v_1 * A1.v_0, A1.v_2 * A1.v_0, A1.v_1 * A1.v_1, A1.v_2 * A1.v_1,
      A1.v_2 * A1.v_2⟩
  let A3 : SymT3 := ⟨A2.v_00 * A1.v_0, A2.v_01 * A1.v_0, A2.v_02 * A1.v_0, A2.v_11 * A1.v_0, A2.v_12 * A1.v_0,
      A2.v_22 * A1.v_0, A2.v_11 * A1.v_1, A2.v_12 * A1.v_1, A2.v_22 * A1.v_1, A2.v_22 *
      A1.v_2⟩
  let A4 : SymT4 := ⟨A3.v_000 * A1.v_0, A3.v_001 * A1.v_0, A3.v_002 * A1.v_0, A3.v_011 * A1.v_0, A3.v_012 *
      A1.v_0, A3.v_022 * A1.v_0, A3.v_111 * A1.v_0, A3.v_112 * A1.v_0, A3.v_122 * A1.v_0,
      A3.v_222 * A1.v_0, A3.v_111 * A1.v_1, A3.v_112 * A1.v_1, A3.v_122 * A1.v_1,
      A3.v_222 * A1.v_1, A3.v_222 * A1.v_2⟩
  let A5 : SymT5 := ⟨A4.v_0000 * A1.v_0, A4.v_0001 * A1.v_0, A4.v_0002 * A1.v_0, A4.v_0011 * A1.v_0, A4.v_0012
      * A1.v_0, A4.v_0022 * A1.v_0, A4.v_0111 * A1.v_0, A4.v_0112 * A1.v_0, A4.v_0122 *
      A1.v_0, A4.v_0222 * A1.v_0, A4.v_1111 * A1.v_0, A4.v_1112 * A1.v_0, A4.v_1122 *
      A1.v_0, A4.v_1222 * A1.v_0, A4.v_2222 * A1.v_0, A4.v_1111 * A1.v_1, A4.v_1112 *
      A1.v_1, A4.v_1122 * A1.v_1, A4.v_1222 * A1.v_1, A4.v_2222 * A1.v_1, A4.v_2222 *
      A1.v_2⟩
  ⟨A1, A2, A3, A4, A5⟩

/-- Models `src/shammath/include/shammath/symtensor_collections.hpp:660-680`.
(The last members have no initialiser in the braces: value-initialised, zero.) -/
def Coll15.zeros : Coll15 :=
  let A1 : SymT1 := ⟨0, 0, 0⟩
  let A2 : SymT2 := ⟨0, 0, 0, 0, 0, 0⟩
  let A3 : SymT3 := ⟨0, 0, 0, 0, 0, 0, 0, 0, 0, 0⟩
  let A4 : SymT4 := ⟨0, 0, 0, 0, 0, 0, 0, 0, 0, 0, 0, 0, 0, 0, 0⟩
  let A5 : SymT5 := ⟨0, 0, 0, 0, 0, 0, 0, 0, 0, 0, 0, 0, 0, 0, 0, 0, 0, 0, 0, 0, 0⟩
  ⟨A1, A2, A3, A4, ⟨0, 0, 0, 0, 0, 0, 0, 0, 0, 0, 0, 0, 0, 0, 0, 0, 0, 0, 0, 0, 0⟩⟩

/-- Models `src/shammath/include/shammath/symtensor_collections.hpp:702-711`. -/
def Coll15.mulAssign (s : Coll15) (scal : ℝ) : Coll15 :=
  ⟨s.t1.mulAssign scal,
    s.t2.mulAssign scal,
    s.t3.mulAssign scal,
    s.t4.mulAssign scal,
    s.t5.mulAssign scal⟩

/-- Models `src/shammath/include/shammath/symtensor_collections.hpp:713-722`. -/
def Coll15.addAssign (s : Coll15) (other : Coll15) : Coll15 :=
  ⟨s.t1.addAssign other.t1,
    s.t2.addAssign other.t2,
    s.t3.addAssign other.t3,
    s.t4.addAssign other.t4,
    s.t5.addAssign other.t5⟩

/-- Models `src/shammath/include/shammath/symtensor_collections.hpp:724-727`. -/
def Coll15.minus (s : Coll15) (other : Coll15) : Coll15 :=
  ⟨s.t1 - other.t1,
    s.t2 - other.t2,
    s.t3 - other.t3,
    s.t4 - other.t4,
    s.t5 - other.t5⟩

/-- `SymTensorCollection<T, 1, 4>`: tensors of the orders 1..4.  Models `src/shammath/include/shammath/symtensor_collections.hpp:731-736`. -/
@[ext] structure Coll14 where
  t1 : SymT1
  t2 : SymT2
  t3 : SymT3
  t4 : SymT4

/-- Models `src/shammath/include/shammath/symtensor_collections.hpp:747-789`. -/
def Coll14.from_vec (v : V3 ℝ): Coll14 :=
  let A1 : SymT1 := ⟨v.x, v.y, v.z⟩
  let A2 : SymT2 := ⟨A1.v_0 * A1.v_0, A1.v_1 * A1.v_0, A1.v_2 * A1.v_0, A1.v_1 * A1.v_1, A1.v_2 * A1.v_1,
      A1.v_2 * A1.v_2⟩
  let A3 : SymT3 := ⟨A2.v_00 * A1.v_0, A2.v_01 * A1.v_0, A2.v_02 * A1.v_0, A2.v_11 * A1.v_0, A2.v_12 * A1.v_0,
      A2.v_22 * A1.v_0, A2.v_11 * A1.v_1, A2.v_12 * A1.v_1, A2.v_22 * A1.v_1, A2.v_22 *
      A1.v_2⟩
  let A4 : SymT4 := ⟨A3.v_000 * A1.v_0, A3.v_001 * A1.v_0, A3.v_002 * A1.v_0, A3.v_011 * A1.v_0, A3.v_012 *
      A1.v_0, A3.v_022 * A1.v_0, A3.v_111 * A1.v_0, A3.v_112 * A1.v_0, A3.v_122 * A1.v_0,
      A3.v_222 * A1.v_0, A3.v_111 * A1.v_1, A3.v_112 * A1.v_1, A3.v_122 * A1.v_1,
      A3.v_222 * A1.v_1, A3.v_222 * A1.v_2⟩
  ⟨A1, A2, A3, A4⟩

/-- Models `src/shammath/include/shammath/symtensor_collections.hpp:791-808`. -/
def Coll14.zeros : Coll14 :=
  let A1 : SymT1 := ⟨0, 0, 0⟩
  let A2 : SymT2 := ⟨0, 0, 0, 0, 0, 0⟩
  let A3 : SymT3 := ⟨0, 0, 0, 0, 0, 0, 0, 0, 0, 0⟩
  let A4 : SymT4 := ⟨0, 0, 0, 0, 0, 0, 0, 0, 0, 0, 0, 0, 0, 0, 0⟩
  ⟨A1, A2, A3, A4⟩

/-- Models `src/shammath/include/shammath/symtensor_collections.hpp:828-836`. -/
def Coll14.mulAssign (s : Coll14) (scal : ℝ) : Coll14 :=
  ⟨s.t1.mulAssign scal,
    s.t2.mulAssign scal,
    s.t3.mulAssign scal,
    s.t4.mulAssign scal⟩

/-- Models `src/shammath/include/shammath/symtensor_collections.hpp:838-846`. -/
def Coll14.addAssign (s : Coll14) (other : Coll14) : Coll14 :=
  ⟨s.t1.addAssign other.t1,
    s.t2.addAssign other.t2,
    s.t3.addAssign other.t3,
    s.t4.addAssign other.t4⟩

/-- Models `src/shammath/include/shammath/symtensor_collections.hpp:848-851`. -/
def Coll14.minus (s : Coll14) (other : Coll14) : Coll14 :=
  ⟨s.t1 - other.t1,
    s.t2 - other.t2,
    s.t3 - other.t3,
    s.t4 - other.t4⟩

/-- `SymTensorCollection<T, 1, 3>`: tensors of the orders 1..3.  Models `src/shammath/include/shammath/symtensor_collections.hpp:855-859`. -/
@[ext] structure Coll13 where
  t1 : SymT1
  t2 : SymT2
  t3 : SymT3

/-- Models `src/shammath/include/shammath/symtensor_collections.hpp:869-894`. -/
def Coll13.from_vec (v : V3 ℝ): Coll13 :=
  let A1 : SymT1 := ⟨v.x, v.y, v.z⟩
  let A2 : SymT2 := ⟨A1.v_0 * A1.v_0, A1.v_1 * A1.v_0, A1.v_2 * A1.v_0, A1.v_1 * A1.v_1, A1.v_2 * A1.v_1,
      A1.v_2 * A1.v_2⟩
  let A3 : SymT3 := ⟨A2.v_00 * A1.v_0, A2.v_01 * A1.v_0, A2.v_02 * A1.v_0, A2.v_11 * A1.v_0, A2.v_12 * A1.v_0,
      A2.v_22 * A1.v_0, A2.v_11 * A1.v_1, A2.v_12 * A1.v_1, A2.v_22 * A1.v_1, A2.v_22 *
      A1.v_2⟩
  ⟨A1, A2, A3⟩

/-- Models `src/shammath/include/shammath/symtensor_collections.hpp:896-911`. -/
def Coll13.zeros : Coll13 :=
  let A1 : SymT1 := ⟨0, 0, 0⟩
  let A2 : SymT2 := ⟨0, 0, 0, 0, 0, 0⟩
  let A3 : SymT3 := ⟨0, 0, 0, 0, 0, 0, 0, 0, 0, 0⟩
  ⟨A1, A2, A3⟩

/-- Models `src/shammath/include/shammath/symtensor_collections.hpp:929-936`. -/
def Coll13.mulAssign (s : Coll13) (scal : ℝ) : Coll13 :=
  ⟨s.t1.mulAssign scal,
    s.t2.mulAssign scal,
    s.t3.mulAssign scal⟩

/-- Models `src/shammath/include/shammath/symtensor_collections.hpp:938-945`. -/
def Coll13.addAssign (s : Coll13) (other : Coll13) : Coll13 :=
  ⟨s.t1.addAssign other.t1,
    s.t2.addAssign other.t2,
    s.t3.addAssign other.t3⟩

/-- Models `src/shammath/include/shammath/symtensor_collections.hpp:947-950`. -/
def Coll13.minus (s : Coll13) (other : Coll13) : Coll13 :=
  ⟨s.t1 - other.t1,
    s.t2 - other.t2,
    s.t3 - other.t3⟩

/-- `SymTensorCollection<T, 1, 2>`: tensors of the orders 1..2.  Models `src/shammath/include/shammath/symtensor_collections.hpp:954-957`. -/
@[ext] structure Coll12 where
  t1 : SymT1
  t2 : SymT2

/-- Models `src/shammath/include/shammath/symtensor_collections.hpp:965-978`. -/
def Coll12.from_vec (v : V3 ℝ): Coll12 :=
  let A1 : SymT1 := ⟨v.x, v.y, v.z⟩
  let A2 : SymT2 := ⟨A1.v_0 * A1.v_0, A1.v_1 * A1.v_0, A1.v_2 * A1.v_0, A1.v_1 * A1.v_1, A1.v_2 * A1.v_1,
      A1.v_2 * A1.v_2⟩
  ⟨A1, A2⟩

/-- Models `src/shammath/include/shammath/symtensor_collections.hpp:980-993`. -/
def Coll12.zeros : Coll12 :=
  let A1 : SymT1 := ⟨0, 0, 0⟩
  let A2 : SymT2 := ⟨0, 0, 0, 0, 0, 0⟩
  ⟨A1, A2⟩

/-- Models `src/shammath/include/shammath/symtensor_collections.hpp:1009-1015`. -/
def Coll12.mulAssign (s : Coll12) (scal : ℝ) : Coll12 :=
  ⟨s.t1.mulAssign scal,
    s.t2.mulAssign scal⟩

/-- Models `src/shammath/include/shammath/symtensor_collections.hpp:1017-1023`. -/
def Coll12.addAssign (s : Coll12) (other : Coll12) : Coll12 :=
  ⟨s.t1.addAssign other.t1,
    s.t2.addAssign other.t2⟩

/-- Models `src/shammath/include/shammath/symtensor_collections.hpp:1025-1028`. -/
def Coll12.minus (s : Coll12) (other : Coll12) : Coll12 :=
  ⟨s.t1 - other.t1,
    s.t2 - other.t2⟩

/-- `SymTensorCollection<T, 1, 1>`: tensors of the orders 1..1.  Models `src/shammath/include/shammath/symtensor_collections.hpp:1032-1034`. -/
@[ext] structure Coll11 where
  t1 : SymT1

/-- Models `src/shammath/include/shammath/symtensor_collections.hpp:1040-1044`. -/
def Coll11.from_vec (v : V3 ℝ): Coll11 :=
  let A1 : SymT1 := ⟨v.x, v.y, v.z⟩
  ⟨A1⟩

/-- Models `src/shammath/include/shammath/symtensor_collections.hpp:1045-1049`. -/
def Coll11.zeros : Coll11 :=
  let A1 : SymT1 := ⟨0, 0, 0⟩
  ⟨A1⟩

/-- Models `src/shammath/include/shammath/symtensor_collections.hpp:1062-1067`. -/
def Coll11.mulAssign (s : Coll11) (scal : ℝ) : Coll11 :=
  ⟨s.t1.mulAssign scal⟩

/-- Models `src/shammath/include/shammath/symtensor_collections.hpp:1069-1074`. -/
def Coll11.addAssign (s : Coll11) (other : Coll11) : Coll11 :=
  ⟨s.t1.addAssign other.t1⟩

/-- Models `src/shammath/include/shammath/symtensor_collections.hpp:1076-1079`. -/
def Coll11.minus (s : Coll11) (other : Coll11) : Coll11 :=
  ⟨s.t1 - other.t1⟩

end

end Shamrock.Fmm
