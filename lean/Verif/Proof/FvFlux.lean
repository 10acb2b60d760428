import Verif.Proof.FvCons
/-! The fluxes of the three solvers in the six directions. -/
namespace Shamrock.Fv
open Amr

/-- The outgoing normal of the face in direction `dir`. -/
def normal : Nat → V3 ℚ
  | 0 => ⟨1, 0, 0⟩
  | 1 => ⟨-1, 0, 0⟩
  | 2 => ⟨0, 1, 0⟩
  | 3 => ⟨0, -1, 0⟩
  | 4 => ⟨0, 0, 1⟩
  | _ => ⟨0, 0, -1⟩

/-- The flux of the Euler equations for an ideal gas through a surface of normal `N`: mass, energy, momentum. -/
def eulerFlux (g : ℚ) (p : PState) (N : V3 ℚ) : CState :=
  let vn := dot p.vel N
  let E := p.press / (g - 1) + p.rho * dot p.vel p.vel / 2
  ⟨p.rho * vn, (E + p.press) * vn,
    ⟨p.rho * vn * p.vel.x + p.press * N.x, p.rho * vn * p.vel.y + p.press * N.y, p.rho * vn * p.vel.z + p.press * N.z⟩⟩

/-- The wave speeds estimated by HLLC across the face between `p` and `q` in direction `dir`: left, contact, right. -/
def Ar.waves (A : Ar) (g : ℚ) (dir : Nat) (p q : PState) : ℚ × ℚ × ℚ := A.hllcSpeeds g (rot dir (A.primToCons g p)) (rot dir (A.primToCons g q))

theorem along_same (s : ℚ → ℚ) (g : ℚ) (hg : 1 < g) (f : CState → CState → CState) (dir : Nat) (hd : dir < 6) (p : PState) (hp : p.rho ≠ 0)
    (h : f (rot dir ((exact s).primToCons g p)) (rot dir ((exact s).primToCons g p)) = (exact s).hydroFlux g (rot dir ((exact s).primToCons g p))) :
    along f dir ((exact s).primToCons g p) ((exact s).primToCons g p) = eulerFlux g p (normal dir) := by
  have hg1 : g ≠ 1 := ne_of_gt hg
  have hr := rot_cons s g dir hd p
  have hf : (exact s).hydroFlux g (rot dir ((exact s).primToCons g p)) =
      let P : PState := ⟨p.rho, p.press, turn dir p.vel⟩
      ⟨p.rho * P.vel.x, (p.press / (g - 1) + p.rho * dot P.vel P.vel / 2 + p.press) * P.vel.x,
        ⟨p.rho * P.vel.x * P.vel.x + p.press, p.rho * P.vel.x * P.vel.y, p.rho * P.vel.x * P.vel.z⟩⟩ := by
    rw [hr]
    unfold Ar.hydroFlux
    rw [round_trip s g hg1 ⟨p.rho, p.press, turn dir p.vel⟩ hp]
    simp only [Ar.primToCons, Ar.rhoekin, Ar.add, Ar.sub, Ar.mul, Ar.div, exact, id, dot, CState.mk.injEq, V3.mk.injEq]
    refine ⟨trivial, ?_, trivial⟩
    ring
  rw [hf] at h
  clear hf hr
  generalize (exact s).primToCons g p = c at h
  unfold eulerFlux
  have hyi : yToX (invertAxis c) = invertAxis (yToX c) := by simp [yToX, invertAxis]
  have hzi : zToX (invertAxis c) = invertAxis (zToX c) := by simp [zToX, invertAxis]
  interval_cases dir <;> simp only [rot, hyi, hzi] at h <;> simp only [along, hyi, hzi] <;> rw [h] <;>
    simp only [normal, turn, dot, invertAxis, xToY, xToZ, CState.mk.injEq, V3.mk.injEq] <;>
    refine ⟨?_, ?_, ?_, ?_, ?_⟩ <;> ring

theorem sound_pos (s : ℚ → ℚ) (hs : ∀ x, 0 < x → 0 < s x) (g : ℚ) (hg : 1 < g) (p : PState) (hp : p.Phys) : 0 < (exact s).soundSpeed g p := by
  unfold Ar.soundSpeed
  apply hs
  have h1 : 0 < g := by linarith
  exact div_pos (mul_pos h1 hp.2) hp.1

end Shamrock.Fv
