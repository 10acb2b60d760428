/-
Generated by tools/gen_fmm.py from /repo (arithmetic copied expression by expression).
-/
import Mathlib.Analysis.SpecialFunctions.Pow.Real
import Verif.Model.FmmTensors

/-!
The operators of the fast multipole method (shamphys/fmm).
-/

namespace Shamrock.Fmm

open Shamrock (V3)

noncomputable section

/-- Difference of two `sycl::vec<T, 3>`. -/
instance : HSub (V3 ℝ) (V3 ℝ) (V3 ℝ) := ⟨fun a b => ⟨a.x - b.x, a.y - b.y, a.z - b.z⟩⟩
/-- Sum of two `sycl::vec<T, 3>`. -/
instance : HAdd (V3 ℝ) (V3 ℝ) (V3 ℝ) := ⟨fun a b => ⟨a.x + b.x, a.y + b.y, a.z + b.z⟩⟩
/-- `sycl::vec<T, 3> / scalar`. -/
def V3.divBy (a : V3 ℝ) (d : ℝ) : V3 ℝ := ⟨a.x / d, a.y / d, a.z / d⟩
/-- Models `src/shamphys/include/shamphys/fmm/contract_grav_moment.hpp:37-39`. -/
def tensor_to_sycl (a : SymT1) : V3 ℝ := ⟨a.v_0, a.v_1, a.v_2⟩

/-- Models `src/shamphys/include/shamphys/fmm/offset_multipole.hpp:27-32`. -/
def offset_multipole_1 (Qt0 : ℝ) (Qt1 : SymT1) (dt1 : SymT1) :
    SymT1 :=
  Qt1 + Qt0 * dt1

/-- Models `src/shamphys/include/shamphys/fmm/offset_multipole.hpp:35-58`. -/
def offset_multipole_2 (Qn1 : SymT1) (Qt1 : SymT1) (Qt2 : SymT2) (dt1 : SymT1) :
    SymT2 :=
  ⟨dt1.v_0 * Qn1.v_0 + Qt1.v_0 * dt1.v_0 + Qt2.v_00,
    dt1.v_0 * Qn1.v_1 + Qt1.v_0 * dt1.v_1 + Qt2.v_01,
    dt1.v_0 * Qn1.v_2 + Qt1.v_0 * dt1.v_2 + Qt2.v_02,
    dt1.v_1 * Qn1.v_1 + Qt1.v_1 * dt1.v_1 + Qt2.v_11,
    dt1.v_1 * Qn1.v_2 + Qt1.v_1 * dt1.v_2 + Qt2.v_12,
    dt1.v_2 * Qn1.v_2 + Qt1.v_2 * dt1.v_2 + Qt2.v_22⟩

/-- Models `src/shamphys/include/shamphys/fmm/offset_multipole.hpp:61-110`. -/
def offset_multipole_3 (Qn1 : SymT1) (Qn2 : SymT2) (Qt2 : SymT2) (Qt3 : SymT3) (dt1 : SymT1) :
    SymT3 :=
  ⟨dt1.v_0 * Qn2.v_00 + dt1.v_0 * (Qn2.v_00 - dt1.v_0 * Qn1.v_0) + Qt2.v_00 * dt1.v_0 +
      Qt3.v_000,
    dt1.v_0 * Qn2.v_01 + dt1.v_0 * (Qn2.v_01 - dt1.v_0 * Qn1.v_1) + Qt2.v_00 * dt1.v_1 +
      Qt3.v_001,
    dt1.v_0 * Qn2.v_02 + dt1.v_0 * (Qn2.v_02 - dt1.v_0 * Qn1.v_2) + Qt2.v_00 * dt1.v_2 +
      Qt3.v_002,
    dt1.v_0 * Qn2.v_11 + dt1.v_1 * (Qn2.v_01 - dt1.v_0 * Qn1.v_1) + Qt2.v_01 * dt1.v_1 +
      Qt3.v_011,
    dt1.v_0 * Qn2.v_12 + dt1.v_1 * (Qn2.v_02 - dt1.v_0 * Qn1.v_2) + Qt2.v_01 * dt1.v_2 +
      Qt3.v_012,
    dt1.v_0 * Qn2.v_22 + dt1.v_2 * (Qn2.v_02 - dt1.v_0 * Qn1.v_2) + Qt2.v_02 * dt1.v_2 +
      Qt3.v_022,
    dt1.v_1 * Qn2.v_11 + dt1.v_1 * (Qn2.v_11 - dt1.v_1 * Qn1.v_1) + Qt2.v_11 * dt1.v_1 +
      Qt3.v_111,
    dt1.v_1 * Qn2.v_12 + dt1.v_1 * (Qn2.v_12 - dt1.v_1 * Qn1.v_2) + Qt2.v_11 * dt1.v_2 +
      Qt3.v_112,
    dt1.v_1 * Qn2.v_22 + dt1.v_2 * (Qn2.v_12 - dt1.v_1 * Qn1.v_2) + Qt2.v_12 * dt1.v_2 +
      Qt3.v_122,
    dt1.v_2 * Qn2.v_22 + dt1.v_2 * (Qn2.v_22 - dt1.v_2 * Qn1.v_2) + Qt2.v_22 * dt1.v_2 +
      Qt3.v_222⟩

/-- Models `src/shamphys/include/shamphys/fmm/offset_multipole.hpp:113-201`. -/
def offset_multipole_4 (Qn2 : SymT2) (Qn3 : SymT3) (Qt2 : SymT2) (Qt3 : SymT3) (Qt4 : SymT4) (dt1 : SymT1) (dt2
    : SymT2) :
    SymT4 :=
  ⟨dt1.v_0 * Qn3.v_000 + dt1.v_0 * (Qn3.v_000 - dt1.v_0 * Qn2.v_00) + dt2.v_00 * Qt2.v_00 +
      dt1.v_0 * Qt3.v_000 + dt1.v_0 * Qt3.v_000 + Qt4.v_0000,
    dt1.v_0 * Qn3.v_001 + dt1.v_0 * (Qn3.v_001 - dt1.v_0 * Qn2.v_01) + dt2.v_01 * Qt2.v_00 +
      dt1.v_1 * Qt3.v_000 + dt1.v_0 * Qt3.v_001 + Qt4.v_0001,
    dt1.v_0 * Qn3.v_002 + dt1.v_0 * (Qn3.v_002 - dt1.v_0 * Qn2.v_02) + dt2.v_02 * Qt2.v_00 +
      dt1.v_2 * Qt3.v_000 + dt1.v_0 * Qt3.v_002 + Qt4.v_0002,
    dt1.v_0 * Qn3.v_011 + dt1.v_1 * (Qn3.v_001 - dt1.v_0 * Qn2.v_01) + dt2.v_01 * Qt2.v_01 +
      dt1.v_1 * Qt3.v_001 + dt1.v_0 * Qt3.v_011 + Qt4.v_0011,
    dt1.v_0 * Qn3.v_012 + dt1.v_1 * (Qn3.v_002 - dt1.v_0 * Qn2.v_02) + dt2.v_02 * Qt2.v_01 +
      dt1.v_2 * Qt3.v_001 + dt1.v_0 * Qt3.v_012 + Qt4.v_0012,
    dt1.v_0 * Qn3.v_022 + dt1.v_2 * (Qn3.v_002 - dt1.v_0 * Qn2.v_02) + dt2.v_02 * Qt2.v_02 +
      dt1.v_2 * Qt3.v_002 + dt1.v_0 * Qt3.v_022 + Qt4.v_0022,
    dt1.v_0 * Qn3.v_111 + dt1.v_1 * (Qn3.v_011 - dt1.v_0 * Qn2.v_11) + dt2.v_11 * Qt2.v_01 +
      dt1.v_1 * Qt3.v_011 + dt1.v_1 * Qt3.v_011 + Qt4.v_0111,
    dt1.v_0 * Qn3.v_112 + dt1.v_1 * (Qn3.v_012 - dt1.v_0 * Qn2.v_12) + dt2.v_12 * Qt2.v_01 +
      dt1.v_2 * Qt3.v_011 + dt1.v_1 * Qt3.v_012 + Qt4.v_0112,
    dt1.v_0 * Qn3.v_122 + dt1.v_2 * (Qn3.v_012 - dt1.v_0 * Qn2.v_12) + dt2.v_12 * Qt2.v_02 +
      dt1.v_2 * Qt3.v_012 + dt1.v_1 * Qt3.v_022 + Qt4.v_0122,
    dt1.v_0 * Qn3.v_222 + dt1.v_2 * (Qn3.v_022 - dt1.v_0 * Qn2.v_22) + dt2.v_22 * Qt2.v_02 +
      dt1.v_2 * Qt3.v_022 + dt1.v_2 * Qt3.v_022 + Qt4.v_0222,
    dt1.v_1 * Qn3.v_111 + dt1.v_1 * (Qn3.v_111 - dt1.v_1 * Qn2.v_11) + dt2.v_11 * Qt2.v_11 +
      dt1.v_1 * Qt3.v_111 + dt1.v_1 * Qt3.v_111 + Qt4.v_1111,
    dt1.v_1 * Qn3.v_112 + dt1.v_1 * (Qn3.v_112 - dt1.v_1 * Qn2.v_12) + dt2.v_12 * Qt2.v_11 +
      dt1.v_2 * Qt3.v_111 + dt1.v_1 * Qt3.v_112 + Qt4.v_1112,
    dt1.v_1 * Qn3.v_122 + dt1.v_2 * (Qn3.v_112 - dt1.v_1 * Qn2.v_12) + dt2.v_12 * Qt2.v_12 +
      dt1.v_2 * Qt3.v_112 + dt1.v_1 * Qt3.v_122 + Qt4.v_1122,
    dt1.v_1 * Qn3.v_222 + dt1.v_2 * (Qn3.v_122 - dt1.v_1 * Qn2.v_22) + dt2.v_22 * Qt2.v_12 +
      dt1.v_2 * Qt3.v_122 + dt1.v_2 * Qt3.v_122 + Qt4.v_1222,
    dt1.v_2 * Qn3.v_222 + dt1.v_2 * (Qn3.v_222 - dt1.v_2 * Qn2.v_22) + dt2.v_22 * Qt2.v_22 +
      dt1.v_2 * Qt3.v_222 + dt1.v_2 * Qt3.v_222 + Qt4.v_2222⟩

/-- Models `src/shamphys/include/shamphys/fmm/offset_multipole.hpp:204-389`. -/
def offset_multipole_5 (Qn3 : SymT3) (Qn4 : SymT4) (Qt2 : SymT2) (Qt3 : SymT3) (Qt4 : SymT4) (Qt5 : SymT5) (dt1
    : SymT1) (dt2 : SymT2) (dt3 : SymT3) :
    SymT5 :=
  ⟨dt1.v_0 * Qn4.v_0000 + dt1.v_0 * (Qn4.v_0000 - dt1.v_0 * Qn3.v_000) + Qt2.v_00 *
      dt3.v_000 + Qt3.v_000 * dt2.v_00 + Qt3.v_000 * dt2.v_00 + Qt4.v_0000 * dt1.v_0 +
      Qt3.v_000 * dt2.v_00 + Qt4.v_0000 * dt1.v_0 + Qt4.v_0000 * dt1.v_0 + Qt5.v_00000,
    dt1.v_0 * Qn4.v_0001 + dt1.v_0 * (Qn4.v_0001 - dt1.v_0 * Qn3.v_001) + Qt2.v_00 *
      dt3.v_001 + Qt3.v_001 * dt2.v_00 + Qt3.v_000 * dt2.v_01 + Qt4.v_0001 * dt1.v_0 +
      Qt3.v_000 * dt2.v_01 + Qt4.v_0001 * dt1.v_0 + Qt4.v_0000 * dt1.v_1 + Qt5.v_00001,
    dt1.v_0 * Qn4.v_0002 + dt1.v_0 * (Qn4.v_0002 - dt1.v_0 * Qn3.v_002) + Qt2.v_00 *
      dt3.v_002 + Qt3.v_002 * dt2.v_00 + Qt3.v_000 * dt2.v_02 + Qt4.v_0002 * dt1.v_0 +
      Qt3.v_000 * dt2.v_02 + Qt4.v_0002 * dt1.v_0 + Qt4.v_0000 * dt1.v_2 + Qt5.v_00002,
    dt1.v_0 * Qn4.v_0011 + dt1.v_0 * (Qn4.v_0011 - dt1.v_0 * Qn3.v_011) + Qt2.v_00 *
      dt3.v_011 + Qt3.v_001 * dt2.v_01 + Qt3.v_000 * dt2.v_11 + Qt4.v_0001 * dt1.v_1 +
      Qt3.v_001 * dt2.v_01 + Qt4.v_0011 * dt1.v_0 + Qt4.v_0001 * dt1.v_1 + Qt5.v_00011,
    dt1.v_0 * Qn4.v_0012 + dt1.v_0 * (Qn4.v_0012 - dt1.v_0 * Qn3.v_012) + Qt2.v_00 *
      dt3.v_012 + Qt3.v_002 * dt2.v_01 + Qt3.v_000 * dt2.v_12 + Qt4.v_0002 * dt1.v_1 +
      Qt3.v_001 * dt2.v_02 + Qt4.v_0012 * dt1.v_0 + Qt4.v_0001 * dt1.v_2 + Qt5.v_00012,
    dt1.v_0 * Qn4.v_0022 + dt1.v_0 * (Qn4.v_0022 - dt1.v_0 * Qn3.v_022) + Qt2.v_00 *
      dt3.v_022 + Qt3.v_002 * dt2.v_02 + Qt3.v_000 * dt2.v_22 + Qt4.v_0002 * dt1.v_2 +
      Qt3.v_002 * dt2.v_02 + Qt4.v_0022 * dt1.v_0 + Qt4.v_0002 * dt1.v_2 + Qt5.v_00022,
    dt1.v_0 * Qn4.v_0111 + dt1.v_0 * (Qn4.v_0111 - dt1.v_0 * Qn3.v_111) + Qt2.v_00 *
      dt3.v_111 + Qt3.v_001 * dt2.v_11 + Qt3.v_001 * dt2.v_11 + Qt4.v_0011 * dt1.v_1 +
      Qt3.v_001 * dt2.v_11 + Qt4.v_0011 * dt1.v_1 + Qt4.v_0011 * dt1.v_1 + Qt5.v_00111,
    dt1.v_0 * Qn4.v_0112 + dt1.v_0 * (Qn4.v_0112 - dt1.v_0 * Qn3.v_112) + Qt2.v_00 *
      dt3.v_112 + Qt3.v_002 * dt2.v_11 + Qt3.v_001 * dt2.v_12 + Qt4.v_0012 * dt1.v_1 +
      Qt3.v_001 * dt2.v_12 + Qt4.v_0012 * dt1.v_1 + Qt4.v_0011 * dt1.v_2 + Qt5.v_00112,
    dt1.v_0 * Qn4.v_0122 + dt1.v_0 * (Qn4.v_0122 - dt1.v_0 * Qn3.v_122) + Qt2.v_00 *
      dt3.v_122 + Qt3.v_002 * dt2.v_12 + Qt3.v_001 * dt2.v_22 + Qt4.v_0012 * dt1.v_2 +
      Qt3.v_002 * dt2.v_12 + Qt4.v_0022 * dt1.v_1 + Qt4.v_0012 * dt1.v_2 + Qt5.v_00122,
    dt1.v_0 * Qn4.v_0222 + dt1.v_0 * (Qn4.v_0222 - dt1.v_0 * Qn3.v_222) + Qt2.v_00 *
      dt3.v_222 + Qt3.v_002 * dt2.v_22 + Qt3.v_002 * dt2.v_22 + Qt4.v_0022 * dt1.v_2 +
      Qt3.v_002 * dt2.v_22 + Qt4.v_0022 * dt1.v_2 + Qt4.v_0022 * dt1.v_2 + Qt5.v_00222,
    dt1.v_0 * Qn4.v_1111 + dt1.v_1 * (Qn4.v_0111 - dt1.v_0 * Qn3.v_111) + Qt2.v_01 *
      dt3.v_111 + Qt3.v_011 * dt2.v_11 + Qt3.v_011 * dt2.v_11 + Qt4.v_0111 * dt1.v_1 +
      Qt3.v_011 * dt2.v_11 + Qt4.v_0111 * dt1.v_1 + Qt4.v_0111 * dt1.v_1 + Qt5.v_01111,
    dt1.v_0 * Qn4.v_1112 + dt1.v_1 * (Qn4.v_0112 - dt1.v_0 * Qn3.v_112) + Qt2.v_01 *
      dt3.v_112 + Qt3.v_012 * dt2.v_11 + Qt3.v_011 * dt2.v_12 + Qt4.v_0112 * dt1.v_1 +
      Qt3.v_011 * dt2.v_12 + Qt4.v_0112 * dt1.v_1 + Qt4.v_0111 * dt1.v_2 + Qt5.v_01112,
    dt1.v_0 * Qn4.v_1122 + dt1.v_1 * (Qn4.v_0122 - dt1.v_0 * Qn3.v_122) + Qt2.v_01 *
      dt3.v_122 + Qt3.v_012 * dt2.v_12 + Qt3.v_011 * dt2.v_22 + Qt4.v_0112 * dt1.v_2 +
      Qt3.v_012 * dt2.v_12 + Qt4.v_0122 * dt1.v_1 + Qt4.v_0112 * dt1.v_2 + Qt5.v_01122,
    dt1.v_0 * Qn4.v_1222 + dt1.v_1 * (Qn4.v_0222 - dt1.v_0 * Qn3.v_222) + Qt2.v_01 *
      dt3.v_222 + Qt3.v_012 * dt2.v_22 + Qt3.v_012 * dt2.v_22 + Qt4.v_0122 * dt1.v_2 +
      Qt3.v_012 * dt2.v_22 + Qt4.v_0122 * dt1.v_2 + Qt4.v_0122 * dt1.v_2 + Qt5.v_01222,
    dt1.v_0 * Qn4.v_2222 + dt1.v_2 * (Qn4.v_0222 - dt1.v_0 * Qn3.v_222) + Qt2.v_02 *
      dt3.v_222 + Qt3.v_022 * dt2.v_22 + Qt3.v_022 * dt2.v_22 + Qt4.v_0222 * dt1.v_2 +
      Qt3.v_022 * dt2.v_22 + Qt4.v_0222 * dt1.v_2 + Qt4.v_0222 * dt1.v_2 + Qt5.v_02222,
    dt1.v_1 * Qn4.v_1111 + dt1.v_1 * (Qn4.v_1111 - dt1.v_1 * Qn3.v_111) + Qt2.v_11 *
      dt3.v_111 + Qt3.v_111 * dt2.v_11 + Qt3.v_111 * dt2.v_11 + Qt4.v_1111 * dt1.v_1 +
      Qt3.v_111 * dt2.v_11 + Qt4.v_1111 * dt1.v_1 + Qt4.v_1111 * dt1.v_1 + Qt5.v_11111,
    dt1.v_1 * Qn4.v_1112 + dt1.v_1 * (Qn4.v_1112 - dt1.v_1 * Qn3.v_112) + Qt2.v_11 *
      dt3.v_112 + Qt3.v_112 * dt2.v_11 + Qt3.v_111 * dt2.v_12 + Qt4.v_1112 * dt1.v_1 +
      Qt3.v_111 * dt2.v_12 + Qt4.v_1112 * dt1.v_1 + Qt4.v_1111 * dt1.v_2 + Qt5.v_11112,
    dt1.v_1 * Qn4.v_1122 + dt1.v_1 * (Qn4.v_1122 - dt1.v_1 * Qn3.v_122) + Qt2.v_11 *
      dt3.v_122 + Qt3.v_112 * dt2.v_12 + Qt3.v_111 * dt2.v_22 + Qt4.v_1112 * dt1.v_2 +
      Qt3.v_112 * dt2.v_12 + Qt4.v_1122 * dt1.v_1 + Qt4.v_1112 * dt1.v_2 + Qt5.v_11122,
    dt1.v_1 * Qn4.v_1222 + dt1.v_1 * (Qn4.v_1222 - dt1.v_1 * Qn3.v_222) + Qt2.v_11 *
      dt3.v_222 + Qt3.v_112 * dt2.v_22 + Qt3.v_112 * dt2.v_22 + Qt4.v_1122 * dt1.v_2 +
      Qt3.v_112 * dt2.v_22 + Qt4.v_1122 * dt1.v_2 + Qt4.v_1122 * dt1.v_2 + Qt5.v_11222,
    dt1.v_1 * Qn4.v_2222 + dt1.v_2 * (Qn4.v_1222 - dt1.v_1 * Qn3.v_222) + Qt2.v_12 *
      dt3.v_222 + Qt3.v_122 * dt2.v_22 + Qt3.v_122 * dt2.v_22 + Qt4.v_1222 * dt1.v_2 +
      Qt3.v_122 * dt2.v_22 + Qt4.v_1222 * dt1.v_2 + Qt4.v_1222 * dt1.v_2 + Qt5.v_12222,
    dt1.v_2 * Qn4.v_2222 + dt1.v_2 * (Qn4.v_2222 - dt1.v_2 * Qn3.v_222) + Qt2.v_22 *
      dt3.v_222 + Qt3.v_222 * dt2.v_22 + Qt3.v_222 * dt2.v_22 + Qt4.v_2222 * dt1.v_2 +
      Qt3.v_222 * dt2.v_22 + Qt4.v_2222 * dt1.v_2 + Qt4.v_2222 * dt1.v_2 + Qt5.v_22222⟩

/-- `offset_multipole_delta<T, 0, 5>`.  Models `src/shamphys/include/shamphys/fmm/offset_multipole.hpp:402-416`. -/
def offset_multipole_delta05 (Q : Coll05) (offset : V3 ℝ) : Coll05 :=
  let d : Coll13 := Coll13.from_vec offset
  let Qn1 : SymT1 := offset_multipole_1 Q.t0 Q.t1 d.t1
  let Qn2 : SymT2 := offset_multipole_2 Qn1 Q.t1 Q.t2 d.t1
  let Qn3 : SymT3 := offset_multipole_3 Qn1 Qn2 Q.t2 Q.t3 d.t1
  let Qn4 : SymT4 := offset_multipole_4 Qn2 Qn3 Q.t2 Q.t3 Q.t4 d.t1 d.t2
  let Qn5 : SymT5 := offset_multipole_5 Qn3 Qn4 Q.t2 Q.t3 Q.t4 Q.t5 d.t1 d.t2 d.t3
  ⟨Q.t0, Qn1, Qn2, Qn3, Qn4, Qn5⟩

/-- `offset_multipole<T, 0, 5>`: the offset is `from - to`.  Models `src/shamphys/include/shamphys/fmm/offset_multipole.hpp:463-470`. -/
def offset_multipole05 (Q_old : Coll05) (src dst : V3 ℝ) : Coll05 :=
  offset_multipole_delta05 Q_old (src - dst)

/-- `offset_multipole_delta<T, 0, 4>`.  Models `src/shamphys/include/shamphys/fmm/offset_multipole.hpp:416-429`. -/
def offset_multipole_delta04 (Q : Coll04) (offset : V3 ℝ) : Coll04 :=
  let d : Coll12 := Coll12.from_vec offset
  let Qn1 : SymT1 := offset_multipole_1 Q.t0 Q.t1 d.t1
  let Qn2 : SymT2 := offset_multipole_2 Qn1 Q.t1 Q.t2 d.t1
  let Qn3 : SymT3 := offset_multipole_3 Qn1 Qn2 Q.t2 Q.t3 d.t1
  let Qn4 : SymT4 := offset_multipole_4 Qn2 Qn3 Q.t2 Q.t3 Q.t4 d.t1 d.t2
  ⟨Q.t0, Qn1, Qn2, Qn3, Qn4⟩

/-- `offset_multipole<T, 0, 4>`: the offset is `from - to`.  Models `src/shamphys/include/shamphys/fmm/offset_multipole.hpp:463-470`. -/
def offset_multipole04 (Q_old : Coll04) (src dst : V3 ℝ) : Coll04 :=
  offset_multipole_delta04 Q_old (src - dst)

/-- `offset_multipole_delta<T, 0, 3>`.  Models `src/shamphys/include/shamphys/fmm/offset_multipole.hpp:429-440`. -/
def offset_multipole_delta03 (Q : Coll03) (offset : V3 ℝ) : Coll03 :=
  let d : Coll11 := Coll11.from_vec offset
  let Qn1 : SymT1 := offset_multipole_1 Q.t0 Q.t1 d.t1
  let Qn2 : SymT2 := offset_multipole_2 Qn1 Q.t1 Q.t2 d.t1
  let Qn3 : SymT3 := offset_multipole_3 Qn1 Qn2 Q.t2 Q.t3 d.t1
  ⟨Q.t0, Qn1, Qn2, Qn3⟩

/-- `offset_multipole<T, 0, 3>`: the offset is `from - to`.  Models `src/shamphys/include/shamphys/fmm/offset_multipole.hpp:463-470`. -/
def offset_multipole03 (Q_old : Coll03) (src dst : V3 ℝ) : Coll03 :=
  offset_multipole_delta03 Q_old (src - dst)

/-- `offset_multipole_delta<T, 0, 2>`.  Models `src/shamphys/include/shamphys/fmm/offset_multipole.hpp:440-449`. -/
def offset_multipole_delta02 (Q : Coll02) (offset : V3 ℝ) : Coll02 :=
  let d : Coll11 := Coll11.from_vec offset
  let Qn1 : SymT1 := offset_multipole_1 Q.t0 Q.t1 d.t1
  let Qn2 : SymT2 := offset_multipole_2 Qn1 Q.t1 Q.t2 d.t1
  ⟨Q.t0, Qn1, Qn2⟩

/-- `offset_multipole<T, 0, 2>`: the offset is `from - to`.  Models `src/shamphys/include/shamphys/fmm/offset_multipole.hpp:463-470`. -/
def offset_multipole02 (Q_old : Coll02) (src dst : V3 ℝ) : Coll02 :=
  offset_multipole_delta02 Q_old (src - dst)

/-- `offset_multipole_delta<T, 0, 1>`.  Models `src/shamphys/include/shamphys/fmm/offset_multipole.hpp:449-456`. -/
def offset_multipole_delta01 (Q : Coll01) (offset : V3 ℝ) : Coll01 :=
  let d : Coll11 := Coll11.from_vec offset
  let Qn1 : SymT1 := offset_multipole_1 Q.t0 Q.t1 d.t1
  ⟨Q.t0, Qn1⟩

/-- `offset_multipole<T, 0, 1>`: the offset is `from - to`.  Models `src/shamphys/include/shamphys/fmm/offset_multipole.hpp:463-470`. -/
def offset_multipole01 (Q_old : Coll01) (src dst : V3 ℝ) : Coll01 :=
  offset_multipole_delta01 Q_old (src - dst)

/-- `offset_multipole_delta<T, 0, 0>`.  Models `src/shamphys/include/shamphys/fmm/offset_multipole.hpp:456-458`. -/
def offset_multipole_delta00 (Q : Coll00) (offset : V3 ℝ) : Coll00 :=
  ⟨Q.t0⟩

/-- `offset_multipole<T, 0, 0>`: the offset is `from - to`.  Models `src/shamphys/include/shamphys/fmm/offset_multipole.hpp:463-470`. -/
def offset_multipole00 (Q_old : Coll00) (src dst : V3 ℝ) : Coll00 :=
  offset_multipole_delta00 Q_old (src - dst)

/-- `offset_dM_mat_delta<T, 0, 5>`.  Models `src/shamphys/include/shamphys/fmm/grav_moment_offset.hpp:40-87` (and the constants at 29-34). -/
def offset_dM_mat_delta05 (dM : Coll05) (offset : V3 ℝ) : Coll05 :=
  let inv_factorial_0 : ℝ := 1/1
  let inv_factorial_1 : ℝ := 1/1
  let inv_factorial_2 : ℝ := 1/2
  let inv_factorial_3 : ℝ := 1/6
  let inv_factorial_4 : ℝ := 1/24
  let inv_factorial_5 : ℝ := 1/120
  let h : Coll05 := Coll05.from_vec offset
  let h_0 : ℝ := h.t0
  let h_1 : SymT1 := h.t1
  let h_2 : SymT2 := h.t2
  let h_3 : SymT3 := h.t3
  let h_4 : SymT4 := h.t4
  let h_5 : SymT5 := h.t5
  let dM_0 : ℝ := dM.t0
  let dM_1 : SymT1 := dM.t1
  let dM_2 : SymT2 := dM.t2
  let dM_3 : SymT3 := dM.t3
  let dM_4 : SymT4 := dM.t4
  let dM_5 : SymT5 := dM.t5
  let dM_ret_0 : ℝ := inv_factorial_0 * h_0 * dM_0 + inv_factorial_1 * h_1 * dM_1 + inv_factorial_2 * h_2 *
      dM_2 + inv_factorial_3 * h_3 * dM_3 + inv_factorial_4 * h_4 * dM_4 +
      inv_factorial_5 * h_5 * dM_5
  let dM_ret_1 : SymT1 := inv_factorial_0 * h_0 * dM_1 + inv_factorial_1 * h_1 * dM_2 + inv_factorial_2 * h_2 *
      dM_3 + inv_factorial_3 * h_3 * dM_4 + inv_factorial_4 * h_4 * dM_5
  let dM_ret_2 : SymT2 := inv_factorial_0 * h_0 * dM_2 + inv_factorial_1 * h_1 * dM_3 + inv_factorial_2 * h_2 *
      dM_4 + inv_factorial_3 * h_3 * dM_5
  let dM_ret_3 : SymT3 := inv_factorial_0 * h_0 * dM_3 + inv_factorial_1 * h_1 * dM_4 + inv_factorial_2 * h_2 *
      dM_5
  let dM_ret_4 : SymT4 := inv_factorial_0 * h_0 * dM_4 + inv_factorial_1 * h_1 * dM_5
  let dM_ret_5 : SymT5 := inv_factorial_0 * h_0 * dM_5
  ⟨dM_ret_0, dM_ret_1, dM_ret_2, dM_ret_3, dM_ret_4, dM_ret_5⟩

/-- `offset_dM_mat<T, 0, 5>`: the offset is `to - from`.  Models `src/shamphys/include/shamphys/fmm/grav_moment_offset.hpp:233-240`. -/
def offset_dM_mat05 (dM : Coll05) (src dst : V3 ℝ) : Coll05 :=
  offset_dM_mat_delta05 dM (dst - src)

/-- `offset_dM_mat_delta<T, 1, 5>`.  Models `src/shamphys/include/shamphys/fmm/grav_moment_offset.hpp:87-128` (and the constants at 29-34). -/
def offset_dM_mat_delta15 (dM : Coll15) (offset : V3 ℝ) : Coll15 :=
  let inv_factorial_0 : ℝ := 1/1
  let inv_factorial_1 : ℝ := 1/1
  let inv_factorial_2 : ℝ := 1/2
  let inv_factorial_3 : ℝ := 1/6
  let inv_factorial_4 : ℝ := 1/24
  let h : Coll05 := Coll05.from_vec offset
  let h_0 : ℝ := h.t0
  let h_1 : SymT1 := h.t1
  let h_2 : SymT2 := h.t2
  let h_3 : SymT3 := h.t3
  let h_4 : SymT4 := h.t4
  let dM_1 : SymT1 := dM.t1
  let dM_2 : SymT2 := dM.t2
  let dM_3 : SymT3 := dM.t3
  let dM_4 : SymT4 := dM.t4
  let dM_5 : SymT5 := dM.t5
  let dM_ret_1 : SymT1 := inv_factorial_0 * h_0 * dM_1 + inv_factorial_1 * h_1 * dM_2 + inv_factorial_2 * h_2 *
      dM_3 + inv_factorial_3 * h_3 * dM_4 + inv_factorial_4 * h_4 * dM_5
  let dM_ret_2 : SymT2 := inv_factorial_0 * h_0 * dM_2 + inv_factorial_1 * h_1 * dM_3 + inv_factorial_2 * h_2 *
      dM_4 + inv_factorial_3 * h_3 * dM_5
  let dM_ret_3 : SymT3 := inv_factorial_0 * h_0 * dM_3 + inv_factorial_1 * h_1 * dM_4 + inv_factorial_2 * h_2 *
      dM_5
  let dM_ret_4 : SymT4 := inv_factorial_0 * h_0 * dM_4 + inv_factorial_1 * h_1 * dM_5
  let dM_ret_5 : SymT5 := inv_factorial_0 * h_0 * dM_5
  ⟨dM_ret_1, dM_ret_2, dM_ret_3, dM_ret_4, dM_ret_5⟩

/-- `offset_dM_mat<T, 1, 5>`: the offset is `to - from`.  Models `src/shamphys/include/shamphys/fmm/grav_moment_offset.hpp:233-240`. -/
def offset_dM_mat15 (dM : Coll15) (src dst : V3 ℝ) : Coll15 :=
  offset_dM_mat_delta15 dM (dst - src)

/-- `offset_dM_mat_delta<T, 1, 4>`.  Models `src/shamphys/include/shamphys/fmm/grav_moment_offset.hpp:128-163` (and the constants at 29-34). -/
def offset_dM_mat_delta14 (dM : Coll14) (offset : V3 ℝ) : Coll14 :=
  let inv_factorial_0 : ℝ := 1/1
  let inv_factorial_1 : ℝ := 1/1
  let inv_factorial_2 : ℝ := 1/2
  let inv_factorial_3 : ℝ := 1/6
  let h : Coll04 := Coll04.from_vec offset
  let h_0 : ℝ := h.t0
  let h_1 : SymT1 := h.t1
  let h_2 : SymT2 := h.t2
  let h_3 : SymT3 := h.t3
  let dM_1 : SymT1 := dM.t1
  let dM_2 : SymT2 := dM.t2
  let dM_3 : SymT3 := dM.t3
  let dM_4 : SymT4 := dM.t4
  let dM_ret_1 : SymT1 := inv_factorial_0 * h_0 * dM_1 + inv_factorial_1 * h_1 * dM_2 + inv_factorial_2 * h_2 *
      dM_3 + inv_factorial_3 * h_3 * dM_4
  let dM_ret_2 : SymT2 := inv_factorial_0 * h_0 * dM_2 + inv_factorial_1 * h_1 * dM_3 + inv_factorial_2 * h_2 *
      dM_4
  let dM_ret_3 : SymT3 := inv_factorial_0 * h_0 * dM_3 + inv_factorial_1 * h_1 * dM_4
  let dM_ret_4 : SymT4 := inv_factorial_0 * h_0 * dM_4
  ⟨dM_ret_1, dM_ret_2, dM_ret_3, dM_ret_4⟩

/-- `offset_dM_mat<T, 1, 4>`: the offset is `to - from`.  Models `src/shamphys/include/shamphys/fmm/grav_moment_offset.hpp:233-240`. -/
def offset_dM_mat14 (dM : Coll14) (src dst : V3 ℝ) : Coll14 :=
  offset_dM_mat_delta14 dM (dst - src)

/-- `offset_dM_mat_delta<T, 1, 3>`.  Models `src/shamphys/include/shamphys/fmm/grav_moment_offset.hpp:163-192` (and the constants at 29-34). -/
def offset_dM_mat_delta13 (dM : Coll13) (offset : V3 ℝ) : Coll13 :=
  let inv_factorial_0 : ℝ := 1/1
  let inv_factorial_1 : ℝ := 1/1
  let inv_factorial_2 : ℝ := 1/2
  let h : Coll03 := Coll03.from_vec offset
  let h_0 : ℝ := h.t0
  let h_1 : SymT1 := h.t1
  let h_2 : SymT2 := h.t2
  let dM_1 : SymT1 := dM.t1
  let dM_2 : SymT2 := dM.t2
  let dM_3 : SymT3 := dM.t3
  let dM_ret_1 : SymT1 := inv_factorial_0 * h_0 * dM_1 + inv_factorial_1 * h_1 * dM_2 + inv_factorial_2 * h_2 *
      dM_3
  let dM_ret_2 : SymT2 := inv_factorial_0 * h_0 * dM_2 + inv_factorial_1 * h_1 * dM_3
  let dM_ret_3 : SymT3 := inv_factorial_0 * h_0 * dM_3
  ⟨dM_ret_1, dM_ret_2, dM_ret_3⟩

/-- `offset_dM_mat<T, 1, 3>`: the offset is `to - from`.  Models `src/shamphys/include/shamphys/fmm/grav_moment_offset.hpp:233-240`. -/
def offset_dM_mat13 (dM : Coll13) (src dst : V3 ℝ) : Coll13 :=
  offset_dM_mat_delta13 dM (dst - src)

/-- `offset_dM_mat_delta<T, 1, 2>`.  Models `src/shamphys/include/shamphys/fmm/grav_moment_offset.hpp:192-214` (and the constants at 29-34). -/
def offset_dM_mat_delta12 (dM : Coll12) (offset : V3 ℝ) : Coll12 :=
  let inv_factorial_0 : ℝ := 1/1
  let inv_factorial_1 : ℝ := 1/1
  let h : Coll01 := Coll01.from_vec offset
  let h_0 : ℝ := h.t0
  let h_1 : SymT1 := h.t1
  let dM_1 : SymT1 := dM.t1
  let dM_2 : SymT2 := dM.t2
  let dM_ret_1 : SymT1 := inv_factorial_0 * h_0 * dM_1 + inv_factorial_1 * h_1 * dM_2
  let dM_ret_2 : SymT2 := inv_factorial_0 * h_0 * dM_2
  ⟨dM_ret_1, dM_ret_2⟩

/-- `offset_dM_mat<T, 1, 2>`: the offset is `to - from`.  Models `src/shamphys/include/shamphys/fmm/grav_moment_offset.hpp:233-240`. -/
def offset_dM_mat12 (dM : Coll12) (src dst : V3 ℝ) : Coll12 :=
  offset_dM_mat_delta12 dM (dst - src)

/-- `offset_dM_mat_delta<T, 1, 1>`.  Models `src/shamphys/include/shamphys/fmm/grav_moment_offset.hpp:214-228` (and the constants at 29-34). -/
def offset_dM_mat_delta11 (dM : Coll11) (offset : V3 ℝ) : Coll11 :=
  let inv_factorial_0 : ℝ := 1/1
  let h_0 : ℝ := 1
  let dM_1 : SymT1 := dM.t1
  let dM_ret_1 : SymT1 := inv_factorial_0 * h_0 * dM_1
  ⟨dM_ret_1⟩

/-- `offset_dM_mat<T, 1, 1>`: the offset is `to - from`.  Models `src/shamphys/include/shamphys/fmm/grav_moment_offset.hpp:233-240`. -/
def offset_dM_mat11 (dM : Coll11) (src dst : V3 ℝ) : Coll11 :=
  offset_dM_mat_delta11 dM (dst - src)

/-- `get_M_mat<T, 0, 5>`.  Models `src/shamphys/include/shamphys/fmm/grav_moments.hpp:32-60`. -/
def get_M_mat05 (D Q : Coll05) : Coll05 :=
  let TD0 : ℝ := D.t0
  let TD1 : SymT1 := D.t1
  let TD2 : SymT2 := D.t2
  let TD3 : SymT3 := D.t3
  let TD4 : SymT4 := D.t4
  let TD5 : SymT5 := D.t5
  let TQ0 : ℝ := Q.t0
  let TQ1 : SymT1 := Q.t1
  let TQ2 : SymT2 := Q.t2
  let TQ3 : SymT3 := Q.t3
  let TQ4 : SymT4 := Q.t4
  let TQ5 : SymT5 := Q.t5
  let M_0 : ℝ := (TD0 * TQ0) + (TD1 * TQ1) + ((TD2 * TQ2)) * (1/2 : ℝ) + ((TD3 * TQ3)) * (1/6 : ℝ) + ((TD4
      * TQ4)) * (1/24 : ℝ) + ((TD5 * TQ5)) * (1/120 : ℝ)
  let M_1 : SymT1 := (-1 : ℝ) * (TD1 * TQ0) - (TD2 * TQ1) - ((TD3 * TQ2)) * (1/2 : ℝ) - ((TD4 * TQ3)) * (1/6 :
      ℝ) - ((TD5 * TQ4)) * (1/24 : ℝ)
  let M_2 : SymT2 := (TD2 * TQ0) + (TD3 * TQ1) + ((TD4 * TQ2)) * (1/2 : ℝ) + ((TD5 * TQ3)) * (1/6 : ℝ)
  let M_3 : SymT3 := (-1 : ℝ) * (TD3 * TQ0) - (TD4 * TQ1) - ((TD5 * TQ2)) * (1/2 : ℝ)
  let M_4 : SymT4 := (TD4 * TQ0) + (TD5 * TQ1)
  let M_5 : SymT5 := (-1 : ℝ) * (TD5 * TQ0)
  ⟨M_0, M_1, M_2, M_3, M_4, M_5⟩

/-- `get_M_mat<T, 0, 4>`.  Models `src/shamphys/include/shamphys/fmm/grav_moments.hpp:60-83`. -/
def get_M_mat04 (D Q : Coll04) : Coll04 :=
  let TD0 : ℝ := D.t0
  let TD1 : SymT1 := D.t1
  let TD2 : SymT2 := D.t2
  let TD3 : SymT3 := D.t3
  let TD4 : SymT4 := D.t4
  let TQ0 : ℝ := Q.t0
  let TQ1 : SymT1 := Q.t1
  let TQ2 : SymT2 := Q.t2
  let TQ3 : SymT3 := Q.t3
  let TQ4 : SymT4 := Q.t4
  let M_0 : ℝ := (TD0 * TQ0) + (TD1 * TQ1) + ((TD2 * TQ2)) * (1/2 : ℝ) + ((TD3 * TQ3)) * (1/6 : ℝ) + ((TD4
      * TQ4)) * (1/24 : ℝ)
  let M_1 : SymT1 := (-1 : ℝ) * (TD1 * TQ0) - (TD2 * TQ1) - ((TD3 * TQ2)) * (1/2 : ℝ) - ((TD4 * TQ3)) * (1/6 :
      ℝ)
  let M_2 : SymT2 := (TD2 * TQ0) + (TD3 * TQ1) + ((TD4 * TQ2)) * (1/2 : ℝ)
  let M_3 : SymT3 := (-1 : ℝ) * (TD3 * TQ0) - (TD4 * TQ1)
  let M_4 : SymT4 := (TD4 * TQ0)
  ⟨M_0, M_1, M_2, M_3, M_4⟩

/-- `get_M_mat<T, 0, 3>`.  Models `src/shamphys/include/shamphys/fmm/grav_moments.hpp:83-102`. -/
def get_M_mat03 (D Q : Coll03) : Coll03 :=
  let TD0 : ℝ := D.t0
  let TD1 : SymT1 := D.t1
  let TD2 : SymT2 := D.t2
  let TD3 : SymT3 := D.t3
  let TQ0 : ℝ := Q.t0
  let TQ1 : SymT1 := Q.t1
  let TQ2 : SymT2 := Q.t2
  let TQ3 : SymT3 := Q.t3
  let M_0 : ℝ := (TD0 * TQ0) + (TD1 * TQ1) + ((TD2 * TQ2)) * (1/2 : ℝ) + ((TD3 * TQ3)) * (1/6 : ℝ)
  let M_1 : SymT1 := (-1 : ℝ) * (TD1 * TQ0) - (TD2 * TQ1) - ((TD3 * TQ2)) * (1/2 : ℝ)
  let M_2 : SymT2 := (TD2 * TQ0) + (TD3 * TQ1)
  let M_3 : SymT3 := (-1 : ℝ) * (TD3 * TQ0)
  ⟨M_0, M_1, M_2, M_3⟩

/-- `get_M_mat<T, 0, 2>`.  Models `src/shamphys/include/shamphys/fmm/grav_moments.hpp:102-117`. -/
def get_M_mat02 (D Q : Coll02) : Coll02 :=
  let TD0 : ℝ := D.t0
  let TD1 : SymT1 := D.t1
  let TD2 : SymT2 := D.t2
  let TQ0 : ℝ := Q.t0
  let TQ1 : SymT1 := Q.t1
  let TQ2 : SymT2 := Q.t2
  let M_0 : ℝ := (TD0 * TQ0) + (TD1 * TQ1) + ((TD2 * TQ2)) * (1/2 : ℝ)
  let M_1 : SymT1 := (-1 : ℝ) * (TD1 * TQ0) - (TD2 * TQ1)
  let M_2 : SymT2 := TD2 * TQ0
  ⟨M_0, M_1, M_2⟩

/-- `get_M_mat<T, 0, 1>`.  Models `src/shamphys/include/shamphys/fmm/grav_moments.hpp:117-129`. -/
def get_M_mat01 (D Q : Coll01) : Coll01 :=
  let TD0 : ℝ := D.t0
  let TD1 : SymT1 := D.t1
  let TQ0 : ℝ := Q.t0
  let TQ1 : SymT1 := Q.t1
  let M_0 : ℝ := (TD0 * TQ0) + (TD1 * TQ1)
  let M_1 : SymT1 := (-1 : ℝ) * (TD1 * TQ0)
  ⟨M_0, M_1⟩

/-- `get_M_mat<T, 0, 0>`.  Models `src/shamphys/include/shamphys/fmm/grav_moments.hpp:129-138`. -/
def get_M_mat00 (D Q : Coll00) : Coll00 :=
  let TD0 : ℝ := D.t0
  let TQ0 : ℝ := Q.t0
  let M_0 : ℝ := TD0 * TQ0
  ⟨M_0⟩

/-- `get_dM_mat<T, 4>`.  Models `src/shamphys/include/shamphys/fmm/grav_moments.hpp:152-179`. -/
def get_dM_mat4 (D : Coll15) (Q : Coll04) : Coll15 :=
  let TD1 : SymT1 := D.t1
  let TD2 : SymT2 := D.t2
  let TD3 : SymT3 := D.t3
  let TD4 : SymT4 := D.t4
  let TD5 : SymT5 := D.t5
  let TQ0 : ℝ := Q.t0
  let TQ1 : SymT1 := Q.t1
  let TQ2 : SymT2 := Q.t2
  let TQ3 : SymT3 := Q.t3
  let TQ4 : SymT4 := Q.t4
  let _1i2 : ℝ := 1/2
  let _1i6 : ℝ := 1/6
  let _1i24 : ℝ := 1/24
  let M_1 : SymT1 := TD1 * TQ0 + TD2 * TQ1 + (TD3 * TQ2) * _1i2 + (TD4 * TQ3) * _1i6 + (TD5 * TQ4) * _1i24
  let M_2 : SymT2 := ((-1 : ℝ) * TD2 * TQ0) - TD3 * TQ1 - (TD4 * TQ2) * _1i2 - (TD5 * TQ3) * _1i6
  let M_3 : SymT3 := TD3 * TQ0 + TD4 * TQ1 + (TD5 * TQ2) * _1i2
  let M_4 : SymT4 := ((-1 : ℝ) * (TD4 * TQ0)) - TD5 * TQ1
  let M_5 : SymT5 := TD5 * TQ0
  ⟨M_1, M_2, M_3, M_4, M_5⟩

/-- `get_dM_mat<T, 3>`.  Models `src/shamphys/include/shamphys/fmm/grav_moments.hpp:179-198`. -/
def get_dM_mat3 (D : Coll14) (Q : Coll03) : Coll14 :=
  let TD1 : SymT1 := D.t1
  let TD2 : SymT2 := D.t2
  let TD3 : SymT3 := D.t3
  let TD4 : SymT4 := D.t4
  let TQ0 : ℝ := Q.t0
  let TQ1 : SymT1 := Q.t1
  let TQ2 : SymT2 := Q.t2
  let TQ3 : SymT3 := Q.t3
  let M_1 : SymT1 := TD1 * TQ0 + TD2 * TQ1 + (TD3 * TQ2) * (1/2 : ℝ) + (TD4 * TQ3) * (1/6 : ℝ)
  let M_2 : SymT2 := ((-1 : ℝ) * TD2 * TQ0) - TD3 * TQ1 - (TD4 * TQ2) * (1/2 : ℝ)
  let M_3 : SymT3 := TD3 * TQ0 + TD4 * TQ1
  let M_4 : SymT4 := (-1 : ℝ) * (TD4 * TQ0)
  ⟨M_1, M_2, M_3, M_4⟩

/-- `get_dM_mat<T, 2>`.  Models `src/shamphys/include/shamphys/fmm/grav_moments.hpp:198-214`. -/
def get_dM_mat2 (D : Coll13) (Q : Coll02) : Coll13 :=
  let TD1 : SymT1 := D.t1
  let TD2 : SymT2 := D.t2
  let TD3 : SymT3 := D.t3
  let TQ0 : ℝ := Q.t0
  let TQ1 : SymT1 := Q.t1
  let TQ2 : SymT2 := Q.t2
  let M_1 : SymT1 := TD1 * TQ0 + TD2 * TQ1 + (TD3 * TQ2) * ((1/2) : ℝ)
  let M_2 : SymT2 := ((-1 : ℝ) * TD2 * TQ0) - TD3 * TQ1
  let M_3 : SymT3 := TD3 * TQ0
  ⟨M_1, M_2, M_3⟩

/-- `get_dM_mat<T, 1>`.  Models `src/shamphys/include/shamphys/fmm/grav_moments.hpp:214-227`. -/
def get_dM_mat1 (D : Coll12) (Q : Coll01) : Coll12 :=
  let TD1 : SymT1 := D.t1
  let TD2 : SymT2 := D.t2
  let TQ0 : ℝ := Q.t0
  let TQ1 : SymT1 := Q.t1
  let M_1 : SymT1 := TD1 * TQ0 + TD2 * TQ1
  let M_2 : SymT2 := (-1 : ℝ) * TD2 * TQ0
  ⟨M_1, M_2⟩

/-- `get_dM_mat<T, 0>`.  Models `src/shamphys/include/shamphys/fmm/grav_moments.hpp:227-236`. -/
def get_dM_mat0 (D : Coll11) (Q : Coll00) : Coll11 :=
  let TD1 : SymT1 := D.t1
  let TQ0 : ℝ := Q.t0
  let M_1 : SymT1 := TD1 * TQ0
  ⟨M_1⟩

/-- `contract_grav_moment_to_force<T, 1>`.  Models `src/shamphys/include/shamphys/fmm/contract_grav_moment.hpp:31-56`. -/
def contract_grav_moment_to_force1 (a_k : Coll00) (dM_k : Coll11) : V3 ℝ :=
  tensor_to_sycl (dM_k.t1 * a_k.t0)

/-- `contract_grav_moment_to_force<T, 2>`.  Models `src/shamphys/include/shamphys/fmm/contract_grav_moment.hpp:31-56`. -/
def contract_grav_moment_to_force2 (a_k : Coll01) (dM_k : Coll12) : V3 ℝ :=
  tensor_to_sycl (dM_k.t1 * a_k.t0)
    + V3.divBy (tensor_to_sycl (dM_k.t2 * a_k.t1)) 1

/-- `contract_grav_moment_to_force<T, 3>`.  Models `src/shamphys/include/shamphys/fmm/contract_grav_moment.hpp:31-56`. -/
def contract_grav_moment_to_force3 (a_k : Coll02) (dM_k : Coll13) : V3 ℝ :=
  tensor_to_sycl (dM_k.t1 * a_k.t0)
    + V3.divBy (tensor_to_sycl (dM_k.t2 * a_k.t1)) 1
    + V3.divBy (tensor_to_sycl (dM_k.t3 * a_k.t2)) 2

/-- `contract_grav_moment_to_force<T, 4>`.  Models `src/shamphys/include/shamphys/fmm/contract_grav_moment.hpp:31-56`. -/
def contract_grav_moment_to_force4 (a_k : Coll03) (dM_k : Coll14) : V3 ℝ :=
  tensor_to_sycl (dM_k.t1 * a_k.t0)
    + V3.divBy (tensor_to_sycl (dM_k.t2 * a_k.t1)) 1
    + V3.divBy (tensor_to_sycl (dM_k.t3 * a_k.t2)) 2
    + V3.divBy (tensor_to_sycl (dM_k.t4 * a_k.t3)) 6

/-- `contract_grav_moment_to_force<T, 5>`.  Models `src/shamphys/include/shamphys/fmm/contract_grav_moment.hpp:31-56`. -/
def contract_grav_moment_to_force5 (a_k : Coll04) (dM_k : Coll15) : V3 ℝ :=
  tensor_to_sycl (dM_k.t1 * a_k.t0)
    + V3.divBy (tensor_to_sycl (dM_k.t2 * a_k.t1)) 1
    + V3.divBy (tensor_to_sycl (dM_k.t3 * a_k.t2)) 2
    + V3.divBy (tensor_to_sycl (dM_k.t4 * a_k.t3)) 6
    + V3.divBy (tensor_to_sycl (dM_k.t5 * a_k.t4)) 24

/-- `GreenFuncGravCartesian<T, 0, 5>::get_der_tensors` (locals that the result does not use are
left out).  Models `src/shamphys/include/shamphys/fmm/GreenFuncGravCartesian.hpp:56-160`. -/
def green05 (r : V3 ℝ) : Coll05 :=
  let r1 : ℝ := r.x
  let r2 : ℝ := r.y
  let r3 : ℝ := r.z
  let r1pow2 : ℝ := r.x * r.x
  let r2pow2 : ℝ := r.y * r.y
  let r3pow2 : ℝ := r.z * r.z
  let r1pow3 : ℝ := r.x * r1pow2
  let r2pow3 : ℝ := r.y * r2pow2
  let r3pow3 : ℝ := r.z * r3pow2
  let r1pow4 : ℝ := r.x * r1pow3
  let r2pow4 : ℝ := r.y * r2pow3
  let r3pow4 : ℝ := r.z * r3pow3
  let r1pow5 : ℝ := r.x * r1pow4
  let r2pow5 : ℝ := r.y * r2pow4
  let r3pow5 : ℝ := r.z * r3pow4
  let rsq : ℝ := r1pow2 + r2pow2 + r3pow2
  let rnorm : ℝ := Real.sqrt rsq
  let rm2 : ℝ := 1 / (rsq)
  let g0 : ℝ := 1 / rnorm
  let g1 : ℝ := -1 * rm2 * g0
  let g2 : ℝ := -3 * rm2 * g1
  let g3 : ℝ := -5 * rm2 * g2
  let g4 : ℝ := -7 * rm2 * g3
  let g5 : ℝ := -9 * rm2 * g4
  let D5 : SymT5 := ⟨15 * g3 * r1 + 10 * g4 * r1pow3 + g5 * r1pow5,
      (3 * g3 + 6 * g4 * r1pow2 + g5 * r1pow4) * r2,
      (3 * g3 + 6 * g4 * r1pow2 + g5 * r1pow4) * r3,
      3 * g3 * r1 + g4 * r1pow3 + 3 * g4 * r1 * r2pow2 + g5 * r1pow3 * r2pow2,
      (3 * g4 * r1 + g5 * r1pow3) * r2 * r3,
      3 * g3 * r1 + g4 * r1pow3 + 3 * g4 * r1 * r3pow2 + g5 * r1pow3 * r3pow2,
      3 * g3 * r2 + 3 * g4 * r1pow2 * r2 + g4 * r2pow3 + g5 * r1pow2 * r2pow3,
      (g3 + g4 * r1pow2 + g4 * r2pow2 + g5 * r1pow2 * r2pow2) * r3,
      r2 * (g3 + g4 * r1pow2 + g4 * r3pow2 + g5 * r1pow2 * r3pow2),
      3 * g3 * r3 + 3 * g4 * r1pow2 * r3 + g4 * r3pow3 + g5 * r1pow2 * r3pow3,
      r1 * (3 * g3 + 6 * g4 * r2pow2 + g5 * r2pow4),
      r1 * (3 * g4 * r2 + g5 * r2pow3) * r3,
      r1 * (g3 + g4 * r2pow2 + g4 * r3pow2 + g5 * r2pow2 * r3pow2),
      r1 * r2 * (3 * g4 * r3 + g5 * r3pow3),
      r1 * (3 * g3 + 6 * g4 * r3pow2 + g5 * r3pow4),
      15 * g3 * r2 + 10 * g4 * r2pow3 + g5 * r2pow5,
      (3 * g3 + 6 * g4 * r2pow2 + g5 * r2pow4) * r3,
      3 * g3 * r2 + g4 * r2pow3 + 3 * g4 * r2 * r3pow2 + g5 * r2pow3 * r3pow2,
      3 * g3 * r3 + 3 * g4 * r2pow2 * r3 + g4 * r3pow3 + g5 * r2pow2 * r3pow3,
      r2 * (3 * g3 + 6 * g4 * r3pow2 + g5 * r3pow4),
      15 * g3 * r3 + 10 * g4 * r3pow3 + g5 * r3pow5⟩
  let D4 : SymT4 := ⟨3 * g2 + 6 * g3 * r1pow2 + g4 * r1pow4,
      3 * g3 * r1 * r2 + g4 * r1pow3 * r2,
      3 * g3 * r1 * r3 + g4 * r1pow3 * r3,
      g2 + g3 * r1pow2 + g3 * r2pow2 + g4 * r1pow2 * r2pow2,
      (g3 + g4 * r1pow2) * r2 * r3,
      g2 + g3 * r1pow2 + g3 * r3pow2 + g4 * r1pow2 * r3pow2,
      3 * g3 * r1 * r2 + g4 * r1 * r2pow3,
      r1 * (g3 + g4 * r2pow2) * r3,
      r1 * r2 * (g3 + g4 * r3pow2),
      3 * g3 * r1 * r3 + g4 * r1 * r3pow3,
      3 * g2 + 6 * g3 * r2pow2 + g4 * r2pow4,
      3 * g3 * r2 * r3 + g4 * r2pow3 * r3,
      g2 + g3 * r2pow2 + g3 * r3pow2 + g4 * r2pow2 * r3pow2,
      3 * g3 * r2 * r3 + g4 * r2 * r3pow3,
      3 * g2 + 6 * g3 * r3pow2 + g4 * r3pow4⟩
  let D3 : SymT3 := ⟨3 * g2 * r1 + g3 * r1pow3,
      g2 * r2 + g3 * r1pow2 * r2,
      g2 * r3 + g3 * r1pow2 * r3,
      g2 * r1 + g3 * r1 * r2pow2,
      g3 * r1 * r2 * r3,
      g2 * r1 + g3 * r1 * r3pow2,
      3 * g2 * r2 + g3 * r2pow3,
      g2 * r3 + g3 * r2pow2 * r3,
      g2 * r2 + g3 * r2 * r3pow2,
      3 * g2 * r3 + g3 * r3pow3⟩
  let D2 : SymT2 := ⟨g1 + g2 * r1pow2,
      g2 * r1 * r2,
      g2 * r1 * r3,
      g1 + g2 * r2pow2,
      g2 * r2 * r3,
      g1 + g2 * r3pow2⟩
  let D1 : SymT1 := ⟨g1 * r1,
      g1 * r2,
      g1 * r3⟩
  let D0 : ℝ := g0
  ⟨D0, D1, D2, D3, D4, D5⟩

/-- `GreenFuncGravCartesian<T, 0, 4>::get_der_tensors` (locals that the result does not use are
left out).  Models `src/shamphys/include/shamphys/fmm/GreenFuncGravCartesian.hpp:164-239`. -/
def green04 (r : V3 ℝ) : Coll04 :=
  let r1 : ℝ := r.x
  let r2 : ℝ := r.y
  let r3 : ℝ := r.z
  let r1pow2 : ℝ := r.x * r.x
  let r2pow2 : ℝ := r.y * r.y
  let r3pow2 : ℝ := r.z * r.z
  let r1pow3 : ℝ := r.x * r1pow2
  let r2pow3 : ℝ := r.y * r2pow2
  let r3pow3 : ℝ := r.z * r3pow2
  let r1pow4 : ℝ := r.x * r1pow3
  let r2pow4 : ℝ := r.y * r2pow3
  let r3pow4 : ℝ := r.z * r3pow3
  let rsq : ℝ := r1pow2 + r2pow2 + r3pow2
  let rnorm : ℝ := Real.sqrt rsq
  let rm2 : ℝ := 1 / (rsq)
  let g0 : ℝ := 1 / rnorm
  let g1 : ℝ := -1 * rm2 * g0
  let g2 : ℝ := -3 * rm2 * g1
  let g3 : ℝ := -5 * rm2 * g2
  let g4 : ℝ := -7 * rm2 * g3
  let D4 : SymT4 := ⟨3 * g2 + 6 * g3 * r1pow2 + g4 * r1pow4,
      3 * g3 * r1 * r2 + g4 * r1pow3 * r2,
      3 * g3 * r1 * r3 + g4 * r1pow3 * r3,
      g2 + g3 * r1pow2 + g3 * r2pow2 + g4 * r1pow2 * r2pow2,
      (g3 + g4 * r1pow2) * r2 * r3,
      g2 + g3 * r1pow2 + g3 * r3pow2 + g4 * r1pow2 * r3pow2,
      3 * g3 * r1 * r2 + g4 * r1 * r2pow3,
      r1 * (g3 + g4 * r2pow2) * r3,
      r1 * r2 * (g3 + g4 * r3pow2),
      3 * g3 * r1 * r3 + g4 * r1 * r3pow3,
      3 * g2 + 6 * g3 * r2pow2 + g4 * r2pow4,
      3 * g3 * r2 * r3 + g4 * r2pow3 * r3,
      g2 + g3 * r2pow2 + g3 * r3pow2 + g4 * r2pow2 * r3pow2,
      3 * g3 * r2 * r3 + g4 * r2 * r3pow3,
      3 * g2 + 6 * g3 * r3pow2 + g4 * r3pow4⟩
  let D3 : SymT3 := ⟨3 * g2 * r1 + g3 * r1pow3,
      g2 * r2 + g3 * r1pow2 * r2,
      g2 * r3 + g3 * r1pow2 * r3,
      g2 * r1 + g3 * r1 * r2pow2,
      g3 * r1 * r2 * r3,
      g2 * r1 + g3 * r1 * r3pow2,
      3 * g2 * r2 + g3 * r2pow3,
      g2 * r3 + g3 * r2pow2 * r3,
      g2 * r2 + g3 * r2 * r3pow2,
      3 * g2 * r3 + g3 * r3pow3⟩
  let D2 : SymT2 := ⟨g1 + g2 * r1pow2,
      g2 * r1 * r2,
      g2 * r1 * r3,
      g1 + g2 * r2pow2,
      g2 * r2 * r3,
      g1 + g2 * r3pow2⟩
  let D1 : SymT1 := ⟨g1 * r1,
      g1 * r2,
      g1 * r3⟩
  let D0 : ℝ := g0
  ⟨D0, D1, D2, D3, D4⟩

/-- `GreenFuncGravCartesian<T, 0, 3>::get_der_tensors` (locals that the result does not use are
left out).  Models `src/shamphys/include/shamphys/fmm/GreenFuncGravCartesian.hpp:243-297`. -/
def green03 (r : V3 ℝ) : Coll03 :=
  let r1 : ℝ := r.x
  let r2 : ℝ := r.y
  let r3 : ℝ := r.z
  let r1pow2 : ℝ := r.x * r.x
  let r2pow2 : ℝ := r.y * r.y
  let r3pow2 : ℝ := r.z * r.z
  let r1pow3 : ℝ := r.x * r1pow2
  let r2pow3 : ℝ := r.y * r2pow2
  let r3pow3 : ℝ := r.z * r3pow2
  let rsq : ℝ := r1pow2 + r2pow2 + r3pow2
  let rnorm : ℝ := Real.sqrt rsq
  let rm2 : ℝ := 1 / (rsq)
  let g0 : ℝ := 1 / rnorm
  let g1 : ℝ := -1 * rm2 * g0
  let g2 : ℝ := -3 * rm2 * g1
  let g3 : ℝ := -5 * rm2 * g2
  let D3 : SymT3 := ⟨3 * g2 * r1 + g3 * r1pow3,
      g2 * r2 + g3 * r1pow2 * r2,
      g2 * r3 + g3 * r1pow2 * r3,
      g2 * r1 + g3 * r1 * r2pow2,
      g3 * r1 * r2 * r3,
      g2 * r1 + g3 * r1 * r3pow2,
      3 * g2 * r2 + g3 * r2pow3,
      g2 * r3 + g3 * r2pow2 * r3,
      g2 * r2 + g3 * r2 * r3pow2,
      3 * g2 * r3 + g3 * r3pow3⟩
  let D2 : SymT2 := ⟨g1 + g2 * r1pow2,
      g2 * r1 * r2,
      g2 * r1 * r3,
      g1 + g2 * r2pow2,
      g2 * r2 * r3,
      g1 + g2 * r3pow2⟩
  let D1 : SymT1 := ⟨g1 * r1,
      g1 * r2,
      g1 * r3⟩
  let D0 : ℝ := g0
  ⟨D0, D1, D2, D3⟩

/-- `GreenFuncGravCartesian<T, 0, 2>::get_der_tensors` (locals that the result does not use are
left out).  Models `src/shamphys/include/shamphys/fmm/GreenFuncGravCartesian.hpp:301-343`. -/
def green02 (r : V3 ℝ) : Coll02 :=
  let r1 : ℝ := r.x
  let r2 : ℝ := r.y
  let r3 : ℝ := r.z
  let r1pow2 : ℝ := r.x * r.x
  let r2pow2 : ℝ := r.y * r.y
  let r3pow2 : ℝ := r.z * r.z
  let rsq : ℝ := r1pow2 + r2pow2 + r3pow2
  let rnorm : ℝ := Real.sqrt rsq
  let rm2 : ℝ := 1 / (rsq)
  let g0 : ℝ := 1 / rnorm
  let g1 : ℝ := -1 * rm2 * g0
  let g2 : ℝ := -3 * rm2 * g1
  let D2 : SymT2 := ⟨g1 + g2 * r1pow2,
      g2 * r1 * r2,
      g2 * r1 * r3,
      g1 + g2 * r2pow2,
      g2 * r2 * r3,
      g1 + g2 * r3pow2⟩
  let D1 : SymT1 := ⟨g1 * r1,
      g1 * r2,
      g1 * r3⟩
  let D0 : ℝ := g0
  ⟨D0, D1, D2⟩

/-- `GreenFuncGravCartesian<T, 0, 1>::get_der_tensors` (locals that the result does not use are
left out).  Models `src/shamphys/include/shamphys/fmm/GreenFuncGravCartesian.hpp:347-378`. -/
def green01 (r : V3 ℝ) : Coll01 :=
  let r1 : ℝ := r.x
  let r2 : ℝ := r.y
  let r3 : ℝ := r.z
  let r1pow2 : ℝ := r.x * r.x
  let r2pow2 : ℝ := r.y * r.y
  let r3pow2 : ℝ := r.z * r.z
  let rsq : ℝ := r1pow2 + r2pow2 + r3pow2
  let rnorm : ℝ := Real.sqrt rsq
  let rm2 : ℝ := 1 / (rsq)
  let g0 : ℝ := 1 / rnorm
  let g1 : ℝ := -1 * rm2 * g0
  let D1 : SymT1 := ⟨g1 * r1,
      g1 * r2,
      g1 * r3⟩
  let D0 : ℝ := g0
  ⟨D0, D1⟩

/-- `GreenFuncGravCartesian<T, 0, 0>::get_der_tensors` (locals that the result does not use are
left out).  Models `src/shamphys/include/shamphys/fmm/GreenFuncGravCartesian.hpp:382-411`. -/
def green00 (r : V3 ℝ) : Coll00 :=
  let r1pow2 : ℝ := r.x * r.x
  let r2pow2 : ℝ := r.y * r.y
  let r3pow2 : ℝ := r.z * r.z
  let rsq : ℝ := r1pow2 + r2pow2 + r3pow2
  let rnorm : ℝ := Real.sqrt rsq
  let g0 : ℝ := 1 / rnorm
  let D0 : ℝ := g0
  ⟨D0⟩

/-- `GreenFuncGravCartesian<T, 1, 5>::get_der_tensors` (locals that the result does not use are
left out).  Models `src/shamphys/include/shamphys/fmm/GreenFuncGravCartesian.hpp:415-516`. -/
def green15 (r : V3 ℝ) : Coll15 :=
  let r1 : ℝ := r.x
  let r2 : ℝ := r.y
  let r3 : ℝ := r.z
  let r1pow2 : ℝ := r.x * r.x
  let r2pow2 : ℝ := r.y * r.y
  let r3pow2 : ℝ := r.z * r.z
  let r1pow3 : ℝ := r.x * r1pow2
  let r2pow3 : ℝ := r.y * r2pow2
  let r3pow3 : ℝ := r.z * r3pow2
  let r1pow4 : ℝ := r.x * r1pow3
  let r2pow4 : ℝ := r.y * r2pow3
  let r3pow4 : ℝ := r.z * r3pow3
  let r1pow5 : ℝ := r.x * r1pow4
  let r2pow5 : ℝ := r.y * r2pow4
  let r3pow5 : ℝ := r.z * r3pow4
  let rsq : ℝ := r1pow2 + r2pow2 + r3pow2
  let rnorm : ℝ := Real.sqrt rsq
  let rm2 : ℝ := 1 / (rsq)
  let g0 : ℝ := 1 / rnorm
  let g1 : ℝ := -1 * rm2 * g0
  let g2 : ℝ := -3 * rm2 * g1
  let g3 : ℝ := -5 * rm2 * g2
  let g4 : ℝ := -7 * rm2 * g3
  let g5 : ℝ := -9 * rm2 * g4
  let D5 : SymT5 := ⟨15 * g3 * r1 + 10 * g4 * r1pow3 + g5 * r1pow5,
      (3 * g3 + 6 * g4 * r1pow2 + g5 * r1pow4) * r2,
      (3 * g3 + 6 * g4 * r1pow2 + g5 * r1pow4) * r3,
      3 * g3 * r1 + g4 * r1pow3 + 3 * g4 * r1 * r2pow2 + g5 * r1pow3 * r2pow2,
      (3 * g4 * r1 + g5 * r1pow3) * r2 * r3,
      3 * g3 * r1 + g4 * r1pow3 + 3 * g4 * r1 * r3pow2 + g5 * r1pow3 * r3pow2,
      3 * g3 * r2 + 3 * g4 * r1pow2 * r2 + g4 * r2pow3 + g5 * r1pow2 * r2pow3,
      (g3 + g4 * r1pow2 + g4 * r2pow2 + g5 * r1pow2 * r2pow2) * r3,
      r2 * (g3 + g4 * r1pow2 + g4 * r3pow2 + g5 * r1pow2 * r3pow2),
      3 * g3 * r3 + 3 * g4 * r1pow2 * r3 + g4 * r3pow3 + g5 * r1pow2 * r3pow3,
      r1 * (3 * g3 + 6 * g4 * r2pow2 + g5 * r2pow4),
      r1 * (3 * g4 * r2 + g5 * r2pow3) * r3,
      r1 * (g3 + g4 * r2pow2 + g4 * r3pow2 + g5 * r2pow2 * r3pow2),
      r1 * r2 * (3 * g4 * r3 + g5 * r3pow3),
      r1 * (3 * g3 + 6 * g4 * r3pow2 + g5 * r3pow4),
      15 * g3 * r2 + 10 * g4 * r2pow3 + g5 * r2pow5,
      (3 * g3 + 6 * g4 * r2pow2 + g5 * r2pow4) * r3,
      3 * g3 * r2 + g4 * r2pow3 + 3 * g4 * r2 * r3pow2 + g5 * r2pow3 * r3pow2,
      3 * g3 * r3 + 3 * g4 * r2pow2 * r3 + g4 * r3pow3 + g5 * r2pow2 * r3pow3,
      r2 * (3 * g3 + 6 * g4 * r3pow2 + g5 * r3pow4),
      15 * g3 * r3 + 10 * g4 * r3pow3 + g5 * r3pow5⟩
  let D4 : SymT4 := ⟨3 * g2 + 6 * g3 * r1pow2 + g4 * r1pow4,
      3 * g3 * r1 * r2 + g4 * r1pow3 * r2,
      3 * g3 * r1 * r3 + g4 * r1pow3 * r3,
      g2 + g3 * r1pow2 + g3 * r2pow2 + g4 * r1pow2 * r2pow2,
      (g3 + g4 * r1pow2) * r2 * r3,
      g2 + g3 * r1pow2 + g3 * r3pow2 + g4 * r1pow2 * r3pow2,
      3 * g3 * r1 * r2 + g4 * r1 * r2pow3,
      r1 * (g3 + g4 * r2pow2) * r3,
      r1 * r2 * (g3 + g4 * r3pow2),
      3 * g3 * r1 * r3 + g4 * r1 * r3pow3,
      3 * g2 + 6 * g3 * r2pow2 + g4 * r2pow4,
      3 * g3 * r2 * r3 + g4 * r2pow3 * r3,
      g2 + g3 * r2pow2 + g3 * r3pow2 + g4 * r2pow2 * r3pow2,
      3 * g3 * r2 * r3 + g4 * r2 * r3pow3,
      3 * g2 + 6 * g3 * r3pow2 + g4 * r3pow4⟩
  let D3 : SymT3 := ⟨3 * g2 * r1 + g3 * r1pow3,
      g2 * r2 + g3 * r1pow2 * r2,
      g2 * r3 + g3 * r1pow2 * r3,
      g2 * r1 + g3 * r1 * r2pow2,
      g3 * r1 * r2 * r3,
      g2 * r1 + g3 * r1 * r3pow2,
      3 * g2 * r2 + g3 * r2pow3,
      g2 * r3 + g3 * r2pow2 * r3,
      g2 * r2 + g3 * r2 * r3pow2,
      3 * g2 * r3 + g3 * r3pow3⟩
  let D2 : SymT2 := ⟨g1 + g2 * r1pow2,
      g2 * r1 * r2,
      g2 * r1 * r3,
      g1 + g2 * r2pow2,
      g2 * r2 * r3,
      g1 + g2 * r3pow2⟩
  let D1 : SymT1 := ⟨g1 * r1,
      g1 * r2,
      g1 * r3⟩
  ⟨D1, D2, D3, D4, D5⟩

/-- `GreenFuncGravCartesian<T, 1, 4>::get_der_tensors` (locals that the result does not use are
left out).  Models `src/shamphys/include/shamphys/fmm/GreenFuncGravCartesian.hpp:520-595`. -/
def green14 (r : V3 ℝ) : Coll14 :=
  let r1 : ℝ := r.x
  let r2 : ℝ := r.y
  let r3 : ℝ := r.z
  let r1pow2 : ℝ := r.x * r.x
  let r2pow2 : ℝ := r.y * r.y
  let r3pow2 : ℝ := r.z * r.z
  let r1pow3 : ℝ := r.x * r1pow2
  let r2pow3 : ℝ := r.y * r2pow2
  let r3pow3 : ℝ := r.z * r3pow2
  let r1pow4 : ℝ := r.x * r1pow3
  let r2pow4 : ℝ := r.y * r2pow3
  let r3pow4 : ℝ := r.z * r3pow3
  let rsq : ℝ := r1pow2 + r2pow2 + r3pow2
  let rnorm : ℝ := Real.sqrt rsq
  let rm2 : ℝ := 1 / (rsq)
  let g0 : ℝ := 1 / rnorm
  let g1 : ℝ := -1 * rm2 * g0
  let g2 : ℝ := -3 * rm2 * g1
  let g3 : ℝ := -5 * rm2 * g2
  let g4 : ℝ := -7 * rm2 * g3
  let D4 : SymT4 := ⟨3 * g2 + 6 * g3 * r1pow2 + g4 * r1pow4,
      3 * g3 * r1 * r2 + g4 * r1pow3 * r2,
      3 * g3 * r1 * r3 + g4 * r1pow3 * r3,
      g2 + g3 * r1pow2 + g3 * r2pow2 + g4 * r1pow2 * r2pow2,
      (g3 + g4 * r1pow2) * r2 * r3,
      g2 + g3 * r1pow2 + g3 * r3pow2 + g4 * r1pow2 * r3pow2,
      3 * g3 * r1 * r2 + g4 * r1 * r2pow3,
      r1 * (g3 + g4 * r2pow2) * r3,
      r1 * r2 * (g3 + g4 * r3pow2),
      3 * g3 * r1 * r3 + g4 * r1 * r3pow3,
      3 * g2 + 6 * g3 * r2pow2 + g4 * r2pow4,
      3 * g3 * r2 * r3 + g4 * r2pow3 * r3,
      g2 + g3 * r2pow2 + g3 * r3pow2 + g4 * r2pow2 * r3pow2,
      3 * g3 * r2 * r3 + g4 * r2 * r3pow3,
      3 * g2 + 6 * g3 * r3pow2 + g4 * r3pow4⟩
  let D3 : SymT3 := ⟨3 * g2 * r1 + g3 * r1pow3,
      g2 * r2 + g3 * r1pow2 * r2,
      g2 * r3 + g3 * r1pow2 * r3,
      g2 * r1 + g3 * r1 * r2pow2,
      g3 * r1 * r2 * r3,
      g2 * r1 + g3 * r1 * r3pow2,
      3 * g2 * r2 + g3 * r2pow3,
      g2 * r3 + g3 * r2pow2 * r3,
      g2 * r2 + g3 * r2 * r3pow2,
      3 * g2 * r3 + g3 * r3pow3⟩
  let D2 : SymT2 := ⟨g1 + g2 * r1pow2,
      g2 * r1 * r2,
      g2 * r1 * r3,
      g1 + g2 * r2pow2,
      g2 * r2 * r3,
      g1 + g2 * r3pow2⟩
  let D1 : SymT1 := ⟨g1 * r1,
      g1 * r2,
      g1 * r3⟩
  ⟨D1, D2, D3, D4⟩

/-- `GreenFuncGravCartesian<T, 1, 3>::get_der_tensors` (locals that the result does not use are
left out).  Models `src/shamphys/include/shamphys/fmm/GreenFuncGravCartesian.hpp:599-652`. -/
def green13 (r : V3 ℝ) : Coll13 :=
  let r1 : ℝ := r.x
  let r2 : ℝ := r.y
  let r3 : ℝ := r.z
  let r1pow2 : ℝ := r.x * r.x
  let r2pow2 : ℝ := r.y * r.y
  let r3pow2 : ℝ := r.z * r.z
  let r1pow3 : ℝ := r.x * r1pow2
  let r2pow3 : ℝ := r.y * r2pow2
  let r3pow3 : ℝ := r.z * r3pow2
  let rsq : ℝ := r1pow2 + r2pow2 + r3pow2
  let rnorm : ℝ := Real.sqrt rsq
  let rm2 : ℝ := 1 / (rsq)
  let g0 : ℝ := 1 / rnorm
  let g1 : ℝ := -1 * rm2 * g0
  let g2 : ℝ := -3 * rm2 * g1
  let g3 : ℝ := -5 * rm2 * g2
  let D3 : SymT3 := ⟨3 * g2 * r1 + g3 * r1pow3,
      g2 * r2 + g3 * r1pow2 * r2,
      g2 * r3 + g3 * r1pow2 * r3,
      g2 * r1 + g3 * r1 * r2pow2,
      g3 * r1 * r2 * r3,
      g2 * r1 + g3 * r1 * r3pow2,
      3 * g2 * r2 + g3 * r2pow3,
      g2 * r3 + g3 * r2pow2 * r3,
      g2 * r2 + g3 * r2 * r3pow2,
      3 * g2 * r3 + g3 * r3pow3⟩
  let D2 : SymT2 := ⟨g1 + g2 * r1pow2,
      g2 * r1 * r2,
      g2 * r1 * r3,
      g1 + g2 * r2pow2,
      g2 * r2 * r3,
      g1 + g2 * r3pow2⟩
  let D1 : SymT1 := ⟨g1 * r1,
      g1 * r2,
      g1 * r3⟩
  ⟨D1, D2, D3⟩

/-- `GreenFuncGravCartesian<T, 1, 2>::get_der_tensors` (locals that the result does not use are
left out).  Models `src/shamphys/include/shamphys/fmm/GreenFuncGravCartesian.hpp:656-696`. -/
def green12 (r : V3 ℝ) : Coll12 :=
  let r1 : ℝ := r.x
  let r2 : ℝ := r.y
  let r3 : ℝ := r.z
  let r1pow2 : ℝ := r.x * r.x
  let r2pow2 : ℝ := r.y * r.y
  let r3pow2 : ℝ := r.z * r.z
  let rsq : ℝ := r1pow2 + r2pow2 + r3pow2
  let rnorm : ℝ := Real.sqrt rsq
  let rm2 : ℝ := 1 / (rsq)
  let g0 : ℝ := 1 / rnorm
  let g1 : ℝ := -1 * rm2 * g0
  let g2 : ℝ := -3 * rm2 * g1
  let D2 : SymT2 := ⟨g1 + g2 * r1pow2,
      g2 * r1 * r2,
      g2 * r1 * r3,
      g1 + g2 * r2pow2,
      g2 * r2 * r3,
      g1 + g2 * r3pow2⟩
  let D1 : SymT1 := ⟨g1 * r1,
      g1 * r2,
      g1 * r3⟩
  ⟨D1, D2⟩

/-- `GreenFuncGravCartesian<T, 1, 1>::get_der_tensors` (locals that the result does not use are
left out).  Models `src/shamphys/include/shamphys/fmm/GreenFuncGravCartesian.hpp:700-729`. -/
def green11 (r : V3 ℝ) : Coll11 :=
  let r1 : ℝ := r.x
  let r2 : ℝ := r.y
  let r3 : ℝ := r.z
  let r1pow2 : ℝ := r.x * r.x
  let r2pow2 : ℝ := r.y * r.y
  let r3pow2 : ℝ := r.z * r.z
  let rsq : ℝ := r1pow2 + r2pow2 + r3pow2
  let rnorm : ℝ := Real.sqrt rsq
  let rm2 : ℝ := 1 / (rsq)
  let g0 : ℝ := 1 / rnorm
  let g1 : ℝ := -1 * rm2 * g0
  let D1 : SymT1 := ⟨g1 * r1,
      g1 * r2,
      g1 * r3⟩
  ⟨D1⟩

end

end Shamrock.Fmm
