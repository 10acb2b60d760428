import Verif.Model.Riemann
import Verif.Proof.AmrFace
import Mathlib.Tactic.Ring
import Mathlib.Tactic.FieldSimp
import Mathlib.Tactic.Linarith
/-! The Riemann solvers under the reflection of the axis. -/
namespace Shamrock.Fv
open Amr (opp)

/-! ### Specification -/

/-- Opposite flux. -/
def CState.neg (c : CState) : CState := ⟨-c.rho, -c.rhoe, ⟨-c.rv.x, -c.rv.y, -c.rv.z⟩⟩
def DState.neg (c : DState) : DState := ⟨-c.rho, ⟨-c.rv.x, -c.rv.y, -c.rv.z⟩⟩

/-- Rounding commutes with the sign (all the IEEE modes but the directed ones; also exact arithmetic). -/
def Ar.Odd (A : Ar) : Prop := ∀ x, A.rnd (-x) = -A.rnd x

/-- Exact arithmetic, with a square root. -/
def exact (sqrt : ℚ → ℚ) : Ar := ⟨id, sqrt⟩

/-- A gas at positive density and pressure. -/
def PState.Phys (p : PState) : Prop := 0 < p.rho ∧ 0 < p.press

/-! ### Rounded arithmetic -/

theorem odd_exact (s : ℚ → ℚ) : (exact s).Odd := fun _ => rfl

section
variable {A : Ar} (h : A.Odd)
include h
theorem add_nn (x y : ℚ) : A.add (-x) (-y) = -A.add x y := by unfold Ar.add; rw [← h]; congr 1; ring
theorem sub_nn (x y : ℚ) : A.sub (-x) (-y) = -A.sub x y := by unfold Ar.sub; rw [← h]; congr 1; ring
theorem sub_swap (x y : ℚ) : A.sub y x = -A.sub x y := by unfold Ar.sub; rw [← h]; congr 1; ring
theorem sub_nswap (x y : ℚ) : A.sub (-y) (-x) = A.sub x y := by unfold Ar.sub; congr 1; ring
theorem sub_neg' (x y : ℚ) : A.sub (-x) y = -A.add x y := by unfold Ar.sub Ar.add; rw [← h]; congr 1; ring
theorem mul_nl (x y : ℚ) : A.mul (-x) y = -A.mul x y := by unfold Ar.mul; rw [← h]; congr 1; ring
theorem mul_nr (x y : ℚ) : A.mul x (-y) = -A.mul x y := by unfold Ar.mul; rw [← h]; congr 1; ring
theorem div_nl (x y : ℚ) : A.div (-x) y = -A.div x y := by unfold Ar.div; rw [← h]; congr 1; ring
end
theorem add_comm' (A : Ar) (x y : ℚ) : A.add x y = A.add y x := by unfold Ar.add; rw [add_comm]

/-- The flux of the reflected states. -/
def J (f : CState) : CState := ⟨-f.rho, -f.rhoe, f.rv⟩

theorem inv_inv (c : CState) : invertAxis (invertAxis c) = c := by simp [invertAxis]
theorem inv_J (f : CState) : invertAxis (J f) = f.neg := by simp [invertAxis, J, CState.neg]

def MirrorAt (f : CState → CState → CState) (a b : CState) : Prop := f (invertAxis b) (invertAxis a) = J (f a b)

theorem toPrim_inv {A : Ar} (h : A.Odd) (g : ℚ) (c : CState) :
    A.consToPrim g (invertAxis c) = ⟨(A.consToPrim g c).rho, (A.consToPrim g c).press, ⟨-(A.consToPrim g c).vel.x, -(A.consToPrim g c).vel.y, -(A.consToPrim g c).vel.z⟩⟩ := by
  simp only [Ar.consToPrim, invertAxis, div_nl h, Ar.rhoekin, mul_nl h, mul_nr h, neg_neg]

theorem flux_inv {A : Ar} (h : A.Odd) (g : ℚ) (c : CState) : A.hydroFlux g (invertAxis c) = J (A.hydroFlux g c) := by
  unfold Ar.hydroFlux
  rw [toPrim_inv h]
  simp only [J, invertAxis, mul_nl h, mul_nr h, neg_neg]

theorem rusanov_mirror {A : Ar} (h : A.Odd) (g : ℚ) (a b : CState) : MirrorAt (A.rusanov g) a b := by
  unfold MirrorAt Ar.rusanov
  simp only [flux_inv h, toPrim_inv h, Ar.soundSpeed, abs_neg]
  rw [max_comm]
  generalize (max _ _ : ℚ) = S
  simp only [J, invertAxis, Ar.cmul, Ar.csub, Ar.cadd, add_nn h, sub_nswap h, ← mul_nl h, ← sub_nn h, neg_neg]
  simp only [sub_swap h a.rho b.rho, sub_swap h a.rhoe b.rhoe, mul_nl h, sub_nn h, neg_neg, sub_neg' h]
  simp only [add_comm' A (A.hydroFlux g b).rv.x, add_comm' A (A.hydroFlux g b).rv.y, add_comm' A (A.hydroFlux g b).rv.z,
    add_comm' A (A.hydroFlux g b).rho, add_comm' A (A.hydroFlux g b).rhoe]

/-! ### The frame of a direction -/

def rot : Nat → CState → CState
  | 0, c => c
  | 1, c => invertAxis c
  | 2, c => yToX c
  | 3, c => yToX (invertAxis c)
  | 4, c => zToX c
  | _, c => zToX (invertAxis c)

theorem along_antisym (f : CState → CState → CState) (dir : Nat) (hd : dir < 6) (a b : CState) (h : MirrorAt f (rot dir a) (rot dir b)) :
    along f (opp dir) b a = (along f dir a b).neg := by
  unfold MirrorAt at h
  have hy : ∀ c, yToX (invertAxis c) = invertAxis (yToX c) := fun c => by simp [yToX, invertAxis]
  have hz : ∀ c, zToX (invertAxis c) = invertAxis (zToX c) := fun c => by simp [zToX, invertAxis]
  interval_cases dir <;> simp only [rot, opp, along, hy, hz, inv_inv] at h ⊢ <;> rw [h] <;>
    simp [J, invertAxis, CState.neg, xToY, xToZ]

/-! ### HLL and HLLC in exact arithmetic -/

theorem hllSpeeds_inv {A : Ar} (h : A.Odd) (g : ℚ) (a b : CState) :
    A.hllSpeeds g (invertAxis b) (invertAxis a) = (-(A.hllSpeeds g a b).2, -(A.hllSpeeds g a b).1) := by
  unfold Ar.hllSpeeds
  simp only [toPrim_inv h, Ar.soundSpeed]
  have e1 : ∀ x y : ℚ, A.sub (-x) y = -A.add x y := sub_neg' h
  have e2 : ∀ x y : ℚ, A.add (-x) y = -A.sub x y := by
    intro x y; unfold Ar.sub Ar.add; rw [← h]; congr 1; ring
  rw [e1, e1, e2, e2]
  generalize A.add _ _ = x1; generalize A.add _ _ = x2; generalize A.sub _ _ = x3; generalize A.sub _ _ = x4
  have m1 : ∀ x y : ℚ, min (-x) (-y) = -max y x := by
    intro x y
    rcases le_total x y with k | k
    · rw [max_eq_left k, min_eq_right (by linarith)]
    · rw [max_eq_right k, min_eq_left (by linarith)]
  have m2 : ∀ x y : ℚ, max (-x) (-y) = -min y x := by
    intro x y
    rcases le_total x y with k | k
    · rw [min_eq_right k, max_eq_left (by linarith)]
    · rw [min_eq_left k, max_eq_right (by linarith)]
  rw [m1, m2]

theorem hll_mirror (s : ℚ → ℚ) (g : ℚ) (a b : CState) (hab : ¬ (0 ≤ ((exact s).hllSpeeds g a b).1 ∧ ((exact s).hllSpeeds g a b).2 ≤ 0)) :
    MirrorAt ((exact s).hll g) a b := by
  unfold MirrorAt Ar.hll
  simp only [hllSpeeds_inv (odd_exact s), flux_inv (odd_exact s)]
  generalize ((exact s).hllSpeeds g a b).1 = SL at *
  generalize ((exact s).hllSpeeds g a b).2 = SR at *
  generalize (exact s).hydroFlux g a = fa
  generalize (exact s).hydroFlux g b = fb
  by_cases h1 : 0 ≤ SL
  · have h2 : ¬ SR ≤ 0 := fun h => hab ⟨h1, h⟩
    rw [if_pos h1, if_neg (by linarith), if_pos (by linarith)]
  · rw [if_neg h1]
    by_cases h2 : SR ≤ 0
    · rw [if_pos (by linarith), if_pos h2]
    · rw [if_neg (by linarith), if_neg (by linarith), if_neg h2]
      simp only [J, invertAxis, Ar.cmul, Ar.csub, Ar.cadd, Ar.add, Ar.sub, Ar.mul, Ar.div, exact, id]
      rw [show -SL - -SR = SR - SL by ring]
      simp only [CState.mk.injEq, V3.mk.injEq]
      refine ⟨?_, ?_, ?_, ?_, ?_⟩ <;> ring

theorem star_mirror (s : ℚ → ℚ) (c f : CState) (S Ss p : ℚ) :
    (exact s).starFlux (invertAxis c) (J f) (-S) (-Ss) p = J ((exact s).starFlux c f S Ss p) := by
  simp only [Ar.starFlux, J, invertAxis, Ar.cmul, Ar.csub, Ar.cadd, Ar.add, Ar.sub, Ar.mul, Ar.div, exact, id]
  rw [show -S - -Ss = -(S - Ss) by ring, div_neg]
  simp only [CState.mk.injEq, V3.mk.injEq]
  refine ⟨?_, ?_, ?_, ?_, ?_⟩ <;> ring

theorem star_zero (s : ℚ → ℚ) (c f : CState) (S p : ℚ) (hS : S ≠ 0) : (exact s).starFlux c f S 0 p = ⟨0, 0, ⟨p, 0, 0⟩⟩ := by
  simp only [Ar.starFlux, Ar.cmul, Ar.csub, Ar.cadd, Ar.add, Ar.sub, Ar.mul, Ar.div, exact, id, CState.mk.injEq, V3.mk.injEq]
  refine ⟨?_, ?_, ?_, ?_, ?_⟩ <;> · rw [sub_zero]; field_simp; ring

theorem star_still (s : ℚ → ℚ) (c f : CState) (Ss p : ℚ) : (exact s).starFlux c f 0 Ss p = f := by
  simp only [Ar.starFlux, Ar.cmul, Ar.csub, Ar.cadd, Ar.add, Ar.sub, Ar.mul, Ar.div, exact, id, mul_zero, add_zero]

theorem pressStar_inv (s : ℚ → ℚ) (g : ℚ) (a b : CState) : (exact s).pressStar g (invertAxis b) (invertAxis a) = (exact s).pressStar g a b := by
  unfold Ar.pressStar
  simp only [toPrim_inv (odd_exact s), Ar.soundSpeed]
  simp only [Ar.add, Ar.sub, Ar.mul, exact, id]
  congr 1
  ring

theorem hllcSpeeds_inv (s : ℚ → ℚ) (g : ℚ) (a b : CState) :
    (exact s).hllcSpeeds g (invertAxis b) (invertAxis a) =
      (-((exact s).hllcSpeeds g a b).2.2, -((exact s).hllcSpeeds g a b).2.1, -((exact s).hllcSpeeds g a b).1) := by
  unfold Ar.hllcSpeeds
  simp only [pressStar_inv]
  simp only [toPrim_inv (odd_exact s), Ar.soundSpeed]
  generalize (exact s).shockFactor g _ ((exact s).consToPrim g a).press = qa
  generalize (exact s).shockFactor g _ ((exact s).consToPrim g b).press = qb
  generalize (exact s).consToPrim g a = pa
  generalize (exact s).consToPrim g b = pb
  generalize (exact s).sqrt _ = ca
  generalize (exact s).sqrt _ = cb
  simp only [Ar.add, Ar.sub, Ar.mul, Ar.div, exact, id, Prod.mk.injEq]
  refine ⟨by ring, ?_, by ring⟩
  rw [← neg_div]
  congr 1 <;> ring

/-- The contact wave of the HLLC solver is on the proper side whenever an outer wave is. -/
def HllcOk (w : ℚ × ℚ × ℚ) : Prop := (0 ≤ w.1 → 0 < w.2.1 ∧ 0 < w.2.2) ∧ (w.2.2 ≤ 0 → w.2.1 < 0 ∧ w.1 < 0)

theorem hllc_mirror (s : ℚ → ℚ) (g : ℚ) (a b : CState) (hab : HllcOk ((exact s).hllcSpeeds g a b)) : MirrorAt ((exact s).hllc g) a b := by
  unfold MirrorAt Ar.hllc
  simp only [hllcSpeeds_inv, flux_inv (odd_exact s)]
  simp only [toPrim_inv (odd_exact s)]
  obtain ⟨k1, k2⟩ := hab
  generalize ((exact s).hllcSpeeds g a b).1 = SL at *
  generalize ((exact s).hllcSpeeds g a b).2.2 = SR at *
  generalize ((exact s).hllcSpeeds g a b).2.1 = Ss at *
  generalize (exact s).hydroFlux g a = fa
  generalize (exact s).hydroFlux g b = fb
  generalize (exact s).consToPrim g a = pa
  generalize (exact s).consToPrim g b = pb
  have hp : (exact s).mul (1 / 2) ((exact s).add ((exact s).add ((exact s).add pb.press pa.press)
        ((exact s).mul ((exact s).mul pb.rho ((exact s).sub (-SR) (-pb.vel.x))) ((exact s).sub (-Ss) (-pb.vel.x))))
        ((exact s).mul ((exact s).mul pa.rho ((exact s).sub (-SL) (-pa.vel.x))) ((exact s).sub (-Ss) (-pa.vel.x)))) =
      (exact s).mul (1 / 2) ((exact s).add ((exact s).add ((exact s).add pa.press pb.press)
        ((exact s).mul ((exact s).mul pa.rho ((exact s).sub SL pa.vel.x)) ((exact s).sub Ss pa.vel.x)))
        ((exact s).mul ((exact s).mul pb.rho ((exact s).sub SR pb.vel.x)) ((exact s).sub Ss pb.vel.x))) := by
    simp only [Ar.add, Ar.sub, Ar.mul, exact, id]; ring
  rw [hp]
  generalize (exact s).mul (1 / 2) _ = p
  by_cases h1 : 0 ≤ SL
  · obtain ⟨k3, k4⟩ := k1 h1
    rw [if_pos h1, if_neg (by linarith), if_neg (by linarith)]
    by_cases h2 : SL = 0
    · rw [if_pos (by linarith), h2, neg_zero, star_still]
    · rw [if_neg (by intro h; apply h2; linarith)]
  · rw [if_neg h1]
    by_cases h2 : 0 ≤ SR
    · by_cases h3 : SR = 0
      · obtain ⟨k3, k4⟩ := k2 (by linarith)
        rw [if_pos (by linarith), if_neg (by linarith), if_pos h2, h3, star_still]
      · have h4 : 0 < SR := lt_of_le_of_ne h2 (Ne.symm h3)
        rw [if_neg (by linarith)]
        by_cases h5 : 0 ≤ Ss
        · rw [if_pos h5]
          by_cases h6 : Ss = 0
          · subst h6
            rw [neg_zero, if_pos (le_refl _), star_zero _ _ _ _ _ (by intro h; apply h3; linarith), star_zero _ _ _ _ _ (by intro h; apply h1; linarith)]
            simp [J]
          · rw [if_neg (by intro h; apply h6; linarith), if_pos (by linarith), star_mirror]
        · rw [if_neg h5, if_pos (by linarith), if_pos h2, star_mirror]
    · obtain ⟨k3, k4⟩ := k2 (by linarith)
      rw [if_pos (by linarith), if_neg (by linarith), if_neg h2]

theorem hllcOk_of_order {w : ℚ × ℚ × ℚ} (h1 : w.1 < w.2.1) (h2 : w.2.1 < w.2.2) : HllcOk w :=
  ⟨fun _ => ⟨by linarith, by linarith⟩, fun _ => ⟨by linarith, by linarith⟩⟩

/-! ### From face states -/

theorem round_trip (s : ℚ → ℚ) (g : ℚ) (hg : g ≠ 1) (p : PState) (hr : p.rho ≠ 0) : (exact s).consToPrim g ((exact s).primToCons g p) = p := by
  have : g - 1 ≠ 0 := sub_ne_zero.2 hg
  obtain ⟨r, P, ⟨x, y, z⟩⟩ := p
  simp only [Ar.consToPrim, Ar.primToCons, Ar.rhoekin, Ar.add, Ar.sub, Ar.mul, Ar.div, exact, id, PState.mk.injEq, V3.mk.injEq]
  simp only at hr
  refine ⟨trivial, ?_, ?_, ?_, ?_⟩ <;> field_simp
  ring

theorem round_trip' (s : ℚ → ℚ) (g : ℚ) (hg : g ≠ 1) (c : CState) (hr : c.rho ≠ 0) : (exact s).primToCons g ((exact s).consToPrim g c) = c := by
  have : g - 1 ≠ 0 := sub_ne_zero.2 hg
  obtain ⟨r, P, ⟨x, y, z⟩⟩ := c
  simp only [Ar.consToPrim, Ar.primToCons, Ar.rhoekin, Ar.add, Ar.sub, Ar.mul, Ar.div, exact, id, CState.mk.injEq, V3.mk.injEq]
  simp only at hr
  refine ⟨trivial, ?_, ?_, ?_, ?_⟩ <;> field_simp
  ring

/-- Velocity in the frame of a direction. -/
def turn : Nat → V3 ℚ → V3 ℚ
  | 0, v => v
  | 1, v => ⟨-v.x, -v.y, -v.z⟩
  | 2, v => ⟨v.y, -v.x, v.z⟩
  | 3, v => ⟨-v.y, v.x, -v.z⟩
  | 4, v => ⟨v.z, v.y, -v.x⟩
  | _, v => ⟨-v.z, -v.y, v.x⟩

theorem rot_cons (s : ℚ → ℚ) (g : ℚ) (dir : Nat) (hd : dir < 6) (p : PState) :
    rot dir ((exact s).primToCons g p) = (exact s).primToCons g ⟨p.rho, p.press, turn dir p.vel⟩ := by
  interval_cases dir <;> simp only [rot, turn, yToX, zToX, invertAxis, Ar.primToCons, Ar.rhoekin, Ar.add, Ar.sub, Ar.mul, Ar.div, exact, id, CState.mk.injEq, V3.mk.injEq] <;>
    refine ⟨trivial, ?_, ?_, ?_, ?_⟩ <;> first | rfl | trivial | ring

theorem hll_ok (s : ℚ → ℚ) (hs : ∀ x, 0 < x → 0 < s x) (g : ℚ) (hg : 1 < g) (dir : Nat) (hd : dir < 6) (p q : PState) (hp : p.Phys) (hq : q.Phys) :
    MirrorAt ((exact s).hll g) (rot dir ((exact s).primToCons g p)) (rot dir ((exact s).primToCons g q)) := by
  apply hll_mirror
  rw [rot_cons s g dir hd, rot_cons s g dir hd]
  unfold Ar.hllSpeeds
  rw [round_trip s g (by linarith) _ (by show p.rho ≠ 0; linarith [hp.1]), round_trip s g (by linarith) _ (by show q.rho ≠ 0; linarith [hq.1])]
  have hc : ∀ r : PState, r.Phys → ∀ v, 0 < (exact s).soundSpeed g ⟨r.rho, r.press, v⟩ := by
    intro r hr v
    apply hs
    show 0 < g * r.press / r.rho
    exact div_pos (mul_pos (by linarith) hr.2) hr.1
  have c1 := hc p hp (turn dir p.vel)
  dsimp only
  generalize (exact s).soundSpeed g ⟨p.rho, p.press, turn dir p.vel⟩ = a at *
  generalize (exact s).soundSpeed g _ = b at *
  show ¬ (0 ≤ min ((turn dir p.vel).x - a) ((turn dir q.vel).x - b) ∧ max ((turn dir p.vel).x + a) ((turn dir q.vel).x + b) ≤ 0)
  rintro ⟨h1, h2⟩
  have := (le_min_iff.1 h1).1
  have := (max_le_iff.1 h2).1
  linarith

/-! ### Equal states -/

theorem rusanov_same (s : ℚ → ℚ) (g : ℚ) (c : CState) : (exact s).rusanov g c c = (exact s).hydroFlux g c := by
  unfold Ar.rusanov
  generalize (exact s).hydroFlux g c = f
  dsimp only
  generalize (max _ _ : ℚ) = S
  obtain ⟨r, e, ⟨x, y, z⟩⟩ := f
  simp only [Ar.cmul, Ar.csub, Ar.cadd, Ar.add, Ar.sub, Ar.mul, exact, id, sub_self, zero_mul, sub_zero, CState.mk.injEq, V3.mk.injEq]
  refine ⟨?_, ?_, ?_, ?_, ?_⟩ <;> ring

theorem hll_same (s : ℚ → ℚ) (g : ℚ) (c : CState) (hc : 0 < (exact s).soundSpeed g ((exact s).consToPrim g c)) : (exact s).hll g c c = (exact s).hydroFlux g c := by
  unfold Ar.hll Ar.hllSpeeds
  generalize (exact s).hydroFlux g c = f
  dsimp only
  generalize (exact s).soundSpeed g _ = a at *
  rw [min_self, max_self]
  show (if 0 ≤ ((exact s).consToPrim g c).vel.x - a then f else if ((exact s).consToPrim g c).vel.x + a ≤ 0 then f else _) = f
  generalize ((exact s).consToPrim g c).vel.x = v
  split
  · rfl
  · split
    · rfl
    · obtain ⟨r, e, ⟨x, y, z⟩⟩ := f
      simp only [Ar.cmul, Ar.csub, Ar.cadd, Ar.add, Ar.sub, Ar.mul, Ar.div, exact, id, sub_self, zero_mul, add_zero, CState.mk.injEq, V3.mk.injEq]
      rw [show v + a - (v - a) = 2 * a by ring]
      refine ⟨?_, ?_, ?_, ?_, ?_⟩ <;> · field_simp; ring

theorem hllcSpeeds_same (s : ℚ → ℚ) (g : ℚ) (c : CState) (hr : 0 < c.rho) (hp : 0 < ((exact s).consToPrim g c).press)
    (hc : 0 < (exact s).soundSpeed g ((exact s).consToPrim g c)) :
    (exact s).hllcSpeeds g c c = (((exact s).consToPrim g c).vel.x - (exact s).soundSpeed g ((exact s).consToPrim g c), ((exact s).consToPrim g c).vel.x,
      ((exact s).consToPrim g c).vel.x + (exact s).soundSpeed g ((exact s).consToPrim g c)) := by
  have hps : (exact s).pressStar g c c = ((exact s).consToPrim g c).press := by
    unfold Ar.pressStar
    dsimp only
    generalize (exact s).soundSpeed g _ = a at *
    generalize (exact s).consToPrim g c = p at *
    simp only [Ar.add, Ar.sub, Ar.mul, exact, id, sub_self, mul_zero, zero_mul, sub_zero]
    rw [max_eq_right] <;> linarith
  have hrho : ((exact s).consToPrim g c).rho = c.rho := rfl
  unfold Ar.hllcSpeeds
  dsimp only
  rw [hps, Ar.shockFactor, if_pos (le_refl _)]
  generalize (exact s).soundSpeed g _ = a at *
  generalize (exact s).consToPrim g c = p at *
  simp only [Ar.add, Ar.sub, Ar.mul, Ar.div, exact, id, Prod.mk.injEq]
  refine ⟨by ring, ?_, by ring⟩
  have h1 : p.rho ≠ 0 := by rw [hrho]; exact ne_of_gt hr
  have h2 : a ≠ 0 := ne_of_gt hc
  rw [show p.rho * (p.vel.x - a * 1 - p.vel.x) - p.rho * (p.vel.x + a * 1 - p.vel.x) = -(2 * p.rho * a) by ring]
  field_simp
  ring

theorem hllc_same (s : ℚ → ℚ) (g : ℚ) (hg : g ≠ 1) (c : CState) (hr : 0 < c.rho) (hp : 0 < ((exact s).consToPrim g c).press)
    (hc : 0 < (exact s).soundSpeed g ((exact s).consToPrim g c)) : (exact s).hllc g c c = (exact s).hydroFlux g c := by
  unfold Ar.hllc
  rw [hllcSpeeds_same s g c hr hp hc]
  dsimp only
  have key : ∀ (S p : ℚ), S - ((exact s).consToPrim g c).vel.x ≠ 0 → p = ((exact s).consToPrim g c).press →
      (exact s).starFlux c ((exact s).hydroFlux g c) S ((exact s).consToPrim g c).vel.x p = (exact s).hydroFlux g c := by
    intro S p hS hpp
    subst hpp
    have h1 : c.rho ≠ 0 := ne_of_gt hr
    have hrt := round_trip' s g hg c h1
    generalize hq : (exact s).consToPrim g c = q at *
    have hqr : q.rho = c.rho := by rw [← hq]; rfl
    have e : c = (exact s).primToCons g q := hrt.symm
    have hf : (exact s).hydroFlux g c = ⟨c.rv.x, (c.rhoe + q.press) * q.vel.x, ⟨c.rho * q.vel.x * q.vel.x + q.press, c.rho * q.vel.x * q.vel.y, c.rho * q.vel.x * q.vel.z⟩⟩ := by
      unfold Ar.hydroFlux; rw [hq]; rfl
    rw [hf]
    have rx : c.rv.x = c.rho * q.vel.x := by rw [e]; rfl
    have ry : c.rv.y = c.rho * q.vel.y := by rw [e]; rfl
    have rz : c.rv.z = c.rho * q.vel.z := by rw [e]; rfl
    simp only [Ar.starFlux, Ar.cmul, Ar.csub, Ar.cadd, Ar.add, Ar.sub, Ar.mul, Ar.div, exact, id, rx, ry, rz, CState.mk.injEq, V3.mk.injEq]
    refine ⟨?_, ?_, ?_, ?_, ?_⟩ <;> · field_simp; ring
  have hpl : ∀ a, (exact s).soundSpeed g ((exact s).consToPrim g c) = a → 0 < a →
      (exact s).mul (1 / 2) ((exact s).add ((exact s).add ((exact s).add ((exact s).consToPrim g c).press ((exact s).consToPrim g c).press)
        ((exact s).mul ((exact s).mul ((exact s).consToPrim g c).rho ((exact s).sub (((exact s).consToPrim g c).vel.x - a) ((exact s).consToPrim g c).vel.x))
          ((exact s).sub ((exact s).consToPrim g c).vel.x ((exact s).consToPrim g c).vel.x)))
        ((exact s).mul ((exact s).mul ((exact s).consToPrim g c).rho ((exact s).sub (((exact s).consToPrim g c).vel.x + a) ((exact s).consToPrim g c).vel.x))
          ((exact s).sub ((exact s).consToPrim g c).vel.x ((exact s).consToPrim g c).vel.x))) = ((exact s).consToPrim g c).press := by
    intro a _ _
    generalize (exact s).consToPrim g c = q
    simp only [Ar.add, Ar.sub, Ar.mul, exact, id, sub_self, mul_zero, add_zero]
    ring
  rw [hpl _ rfl hc]
  rw [key _ _ (by intro h; linarith) rfl, key _ _ (by intro h; linarith) rfl]
  split
  · rfl
  · split
    · rfl
    · split <;> rfl

/-! ### Dust -/

def dJ (f : DState) : DState := ⟨-f.rho, f.rv⟩

theorem dVel_inv {A : Ar} (h : A.Odd) (c : DState) : A.dVel (dInvert c) = ⟨-(A.dVel c).x, -(A.dVel c).y, -(A.dVel c).z⟩ := by
  simp only [Ar.dVel, dInvert, mul_nl h]

theorem dFlux_inv {A : Ar} (h : A.Odd) (c : DState) : A.dFlux (dInvert c) = dJ (A.dFlux c) := by
  unfold Ar.dFlux
  rw [dVel_inv h]
  simp only [dJ, dInvert, mul_nl h, mul_nr h, neg_neg]

theorem dHll_mirror {A : Ar} (h : A.Odd) (a b : DState) : A.dHll (dInvert b) (dInvert a) = dJ (A.dHll a b) := by
  unfold Ar.dHll
  simp only [dFlux_inv h, dVel_inv h, abs_neg]
  rw [max_comm]
  generalize (max _ _ : ℚ) = S
  simp only [dJ, dInvert, Ar.dmul, Ar.dsub, Ar.dadd, add_nn h, sub_nswap h, ← mul_nl h, ← sub_nn h, neg_neg]
  simp only [sub_swap h a.rho b.rho, mul_nl h, sub_nn h, neg_neg, sub_neg' h]
  simp only [add_comm' A (A.dFlux b).rv.x, add_comm' A (A.dFlux b).rv.y, add_comm' A (A.dFlux b).rv.z, add_comm' A (A.dFlux b).rho]

theorem hb_mirror {A : Ar} (h : A.Odd) (a b : DState) : A.huangBai (dInvert b) (dInvert a) = dJ (A.huangBai a b) := by
  unfold Ar.huangBai
  simp only [dFlux_inv h, dVel_inv h]
  generalize (A.dVel a).x = x
  generalize (A.dVel b).x = y
  generalize A.dFlux a = fa
  generalize A.dFlux b = fb
  have hz : dJ ⟨0, ⟨0, 0, 0⟩⟩ = ⟨0, ⟨0, 0, 0⟩⟩ := by simp [dJ]
  have ha : A.dadd (dJ fb) (dJ fa) = dJ (A.dadd fa fb) := by
    simp only [Ar.dadd, dJ, add_nn h]
    rw [add_comm' A fb.rho, add_comm' A fb.rv.x, add_comm' A fb.rv.y, add_comm' A fb.rv.z]
  rcases lt_trichotomy x 0 with hx | hx | hx <;> rcases lt_trichotomy y 0 with hy | hy | hy <;>
    simp [hx, hy, not_lt_of_gt, hz, ha]

theorem dAlong_antisym (f : DState → DState → DState) (hm : ∀ a b, f (dInvert b) (dInvert a) = dJ (f a b)) (dir : Nat) (hd : dir < 6) (a b : DState) :
    dAlong f (opp dir) b a = (dAlong f dir a b).neg := by
  have hy : ∀ c, dYToX (dInvert c) = dInvert (dYToX c) := fun c => by simp [dYToX, dInvert]
  have hz : ∀ c, dZToX (dInvert c) = dInvert (dZToX c) := fun c => by simp [dZToX, dInvert]
  have hi : ∀ c, dInvert (dInvert c) = c := fun c => by simp [dInvert]
  have h2 : ∀ a b, f b a = dJ (f (dInvert a) (dInvert b)) := fun a b => by rw [← hm, hi, hi]
  interval_cases dir <;> simp only [opp, dAlong, hy, hz]
  · rw [hm]; simp [dJ, dInvert, DState.neg]
  · rw [h2]; simp [dJ, dInvert, DState.neg]
  · rw [hm]; simp [dJ, dInvert, DState.neg, dXToY]
  · rw [h2]; simp [dJ, dInvert, DState.neg, dXToY]
  · rw [hm]; simp [dJ, dInvert, DState.neg, dXToZ]
  · rw [h2]; simp [dJ, dInvert, DState.neg, dXToZ]

end Shamrock.Fv
