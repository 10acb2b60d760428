import Verif.Model.SphForce
import Mathlib.Tactic.Ring
import Mathlib.Tactic.Linarith
import Mathlib.Tactic.FieldSimp
import Mathlib.Algebra.Order.Field.Basic
import Mathlib.Algebra.BigOperators.Group.Finset.Basic
import Mathlib.Algebra.BigOperators.Group.Finset.Sigma
import Mathlib.Algebra.BigOperators.Ring.Finset
/-! Proofs about the pair forces and their sums. -/
namespace Shamrock.Sph

section
variable {K : Type} [Field K] [LinearOrder K] [IsStrictOrderedRing K]

theorem v3_ext {a b : V3 K} (h1 : a.x = b.x) (h2 : a.y = b.y) (h3 : a.z = b.z) : a = b := by
  obtain ⟨a1, a2, a3⟩ := a
  obtain ⟨b1, b2, b3⟩ := b
  simp only at h1 h2 h3
  rw [h1, h2, h3]

/-- Specification: the opposite vector. -/
def vneg (a : V3 K) : V3 K := ⟨-a.x, -a.y, -a.z⟩

theorem inv_pair (rho om : K) : invSatZero (rho * rho * om) = 1 / (om * rho) * (1 / rho) := by
  unfold invSatZero
  by_cases h : rho * rho * om = 0
  · rw [if_neg (not_not.2 h)]
    rcases mul_eq_zero.1 h with h | h
    · have : rho = 0 := by simpa using h
      simp [this]
    · simp [h]
  · rw [if_pos h]
    have h1 : rho ≠ 0 := by rintro rfl; simp at h
    have h2 : om ≠ 0 := by rintro rfl; simp at h
    field_simp

/-- The scalar fields are the same. -/
structure SameState (a a' : Part K) : Prop where
  h : a'.h = a.h
  u : a'.u = a.u
  omega : a'.omega = a.omega
  p : a'.p = a.p
  cs : a'.cs = a.cs
  alpha : a'.alpha = a.alpha

/-- `b'` is seen from `a` as the mirror of what `b` sees of `a'`. -/
structure Mirror (a b a' b' : Part K) : Prop where
  sa : SameState a a'
  sb : SameState b b'
  dx : vsub b.x a'.x = vneg (vsub a.x b'.x)
  dv : vsub b.v a'.v = vneg (vsub a.v b'.v)

theorem dot_neg (a b : V3 K) : dot (vneg a) (vneg b) = dot a b := by unfold dot vneg; ring

theorem far_mirror (C : Cfg K) {a b a' b' : Part K} (M : Mirror a b a' b') : C.far b a' = C.far a b' := by
  unfold Cfg.far
  rw [M.dx]
  simp only [dot_neg, M.sa.h, M.sb.h]
  rw [Bool.and_comm]

theorem q_same (C : Cfg K) {a a' : Part K} (S : SameState a a') (rho rab vr : K) : C.q a' rho rab vr = C.q a rho rab vr := by
  unfold Cfg.q
  have : C.visc.alphaOf a' = C.visc.alphaOf a := by
    unfold Visc.alphaOf; cases C.visc <;> simp [S.alpha]
  rw [this, S.cs, S.h]

theorem unit_neg (s : K) (d : V3 K) : smul s (vneg d) = vneg (smul s d) := by
  unfold smul vneg; simp only [mul_neg]

/-- The parts of `near`: pressures with viscosity, distances, gradients. -/
theorem near_eq (C : Cfg K) (a b : Part K) : ∃ (f : V3 K) (g vr : K) (pa pb ia ib fa fb : K), f = smul (invSatPositive (C.sqrt (dot (vsub a.x b.x) (vsub a.x b.x)))) (vsub a.x b.x) ∧
    vr = dot (vsub a.v b.v) f ∧
    ia = 1 / (a.omega * rhoH C.pmass a.h C.hfact) * (1 / rhoH C.pmass a.h C.hfact) ∧ ib = 1 / (b.omega * rhoH C.pmass b.h C.hfact) * (1 / rhoH C.pmass b.h C.hfact) ∧
    fa = C.dW (C.sqrt (dot (vsub a.x b.x) (vsub a.x b.x))) a.h ∧ fb = C.dW (C.sqrt (dot (vsub a.x b.x) (vsub a.x b.x))) b.h ∧
    pa = a.p + C.q a (rhoH C.pmass a.h C.hfact) (C.sqrt (dot (vsub a.x b.x) (vsub a.x b.x))) vr ∧
    pb = b.p + C.q b (rhoH C.pmass b.h C.hfact) (C.sqrt (dot (vsub a.x b.x) (vsub a.x b.x))) vr ∧
    g = C.pmass * C.alphaU * vsigU C.sqrt a.p b.p (rhoH C.pmass a.h C.hfact) (rhoH C.pmass b.h C.hfact) * (a.u - b.u) * (1 / 2) *
      (fa / (a.omega * rhoH C.pmass a.h C.hfact) + fb / (b.omega * rhoH C.pmass b.h C.hfact)) ∧
    (C.near a b).1 = smul (-C.pmass * (pa * ia * fa + pb * ib * fb)) f ∧
    (C.near a b).2 = C.pmass * (pa * ia * fa) * vr + g := by
  refine ⟨_, _, _, _, _, _, _, _, _, rfl, rfl, rfl, rfl, rfl, rfl, rfl, rfl, rfl, ?_, ?_⟩
  · unfold Cfg.near addToDerivs pressureSym
    simp only [inv_pair]
    apply v3_ext <;> (unfold smul vadd; ring)
  · unfold Cfg.near addToDerivs duPressure shockConductivity
    simp only
    unfold dot smul
    ring

theorem vsigU_comm (sqrt : K → K) (pa pb ra rb : K) : vsigU sqrt pb pa rb ra = vsigU sqrt pa pb ra rb := by
  unfold vsigU
  rw [abs_sub_comm, add_comm]

/-- The forces of a pair are opposite. -/
theorem near_force (C : Cfg K) {a b a' b' : Part K} (M : Mirror a b a' b') : (C.near b a').1 = vneg (C.near a b').1 := by
  obtain ⟨f, g, vr, pa, pb, ia, ib, fa, fb, e1, e2, e3, e4, e5, e6, e7, e8, -, e10, -⟩ := near_eq C a b'
  obtain ⟨f', g', vr', pa', pb', ia', ib', fa', fb', d1, d2, d3, d4, d5, d6, d7, d8, -, d10, -⟩ := near_eq C b a'
  rw [M.dx, dot_neg, unit_neg, ← e1] at d1
  rw [M.dv, d1, dot_neg, ← e2] at d2
  rw [M.dx, dot_neg] at d5 d6 d7 d8
  rw [M.sb.omega, M.sb.h] at e4
  rw [M.sa.omega, M.sa.h] at d4
  rw [M.sb.h] at e6
  rw [M.sa.h] at d6
  rw [M.sb.p, M.sb.h, q_same C M.sb] at e8
  rw [M.sa.p, M.sa.h, q_same C M.sa] at d8
  rw [d2] at d7 d8
  have h1 : pa' = pb := by rw [d7, e8]
  have h2 : pb' = pa := by rw [d8, e7]
  have h3 : ia' = ib := by rw [d3, e4]
  have h4 : ib' = ia := by rw [d4, e3]
  have h5 : fa' = fb := by rw [d5, e6]
  have h6 : fb' = fa := by rw [d6, e5]
  rw [d10, e10, d1, h1, h2, h3, h4, h5, h6]
  apply v3_ext <;> (unfold smul vneg; ring)

/-- The work of the forces of a pair is taken from the internal energies. -/
theorem near_energy (C : Cfg K) {a b a' b' : Part K} (M : Mirror a b a' b') : (C.near a b').2 + (C.near b a').2 + dot (vsub a.v b'.v) (C.near a b').1 = 0 := by
  obtain ⟨f, g, vr, pa, pb, ia, ib, fa, fb, e1, e2, e3, e4, e5, e6, e7, e8, e9, e10, e11⟩ := near_eq C a b'
  obtain ⟨f', g', vr', pa', pb', ia', ib', fa', fb', d1, d2, d3, d4, d5, d6, d7, d8, d9, d10, d11⟩ := near_eq C b a'
  rw [M.dx, dot_neg, unit_neg, ← e1] at d1
  rw [M.dv, d1, dot_neg, ← e2] at d2
  rw [M.dx, dot_neg] at d5 d6 d7 d8
  rw [M.sb.omega, M.sb.h] at e4
  rw [M.sb.h] at e6
  rw [M.sa.h] at d6
  rw [M.sb.p, M.sb.h, q_same C M.sb] at e8
  rw [d2] at d7
  have h1 : pa' = pb := by rw [d7, e8]
  have h3 : ia' = ib := by rw [d3, e4]
  have h5 : fa' = fb := by rw [d5, e6]
  have h6 : fb' = fa := by rw [d6, e5]
  rw [M.sb.p, M.sb.h, M.sb.omega, M.sb.u] at e9
  rw [M.sa.p, M.sa.h, M.sa.omega, M.sa.u, vsigU_comm, h5, h6] at d9
  have hv : dot (vsub a.v b'.v) (smul (-C.pmass * (pa * ia * fa + pb * ib * fb)) f) = -C.pmass * (pa * ia * fa + pb * ib * fb) * vr := by
    rw [e2]; unfold dot smul; ring
  rw [e10, hv, e11, d11, d2, h1, h3, h5, d9, e9]
  ring

/-- The forces are along the line of the centres. -/
theorem near_central (C : Cfg K) (a b : Part K) : cross (vsub a.x b.x) (C.near a b).1 = ⟨0, 0, 0⟩ := by
  obtain ⟨f, g, vr, pa, pb, ia, ib, fa, fb, e1, e2, e3, e4, e5, e6, e7, e8, e9, e10, e11⟩ := near_eq C a b
  rw [e10, e1]
  apply v3_ext <;> (unfold cross smul; ring)

/-! ### The loop over the neighbours -/

theorem v3_zero_add (a : V3 K) : vadd ⟨0, 0, 0⟩ a = a := by apply v3_ext <;> simp [vadd]

/-- What a pair contributes. -/
def Cfg.pair (C : Cfg K) (a b : Part K) : V3 K × K := if C.far a b then (⟨0, 0, 0⟩, 0) else C.near a b

/-- A readout of the derivatives of a particle that is additive. -/
structure Additive (φ : V3 K × K → K) : Prop where
  zero : φ (⟨0, 0, 0⟩, 0) = 0
  add : ∀ a b : V3 K × K, φ (vadd a.1 b.1, a.2 + b.2) = φ a + φ b

theorem loop_sum (C : Cfg K) (φ : V3 K × K → K) (A : Additive φ) (pa : Part K) (get : Nat → Option (Part K)) (P : Nat → Part K) : ∀ (l : List Nat) (acc : V3 K × K),
    (∀ b ∈ l, get b = some (P b) ∧ C.bad (P b) = false ∧ rhoH C.pmass pa.h C.hfact + rhoH C.pmass (P b).h C.hfact ≠ 0) →
    ∃ w, l.foldlM (fun acc b => (get b).bind fun pb => C.turn pa pb acc) acc = some w ∧ φ w = φ acc + (l.map fun b => φ (C.pair pa (P b))).sum := by
  intro l
  induction l with
  | nil => intro acc _; exact ⟨acc, rfl, by simp⟩
  | cons b l ih =>
    intro acc h
    obtain ⟨h1, h2, h3⟩ := h b List.mem_cons_self
    rw [List.foldlM_cons, h1, Option.bind_some]
    unfold Cfg.turn
    by_cases hf : C.far pa (P b) = true
    · rw [if_pos hf]
      obtain ⟨w, w1, w2⟩ := ih acc fun b' hb' => h b' (List.mem_cons_of_mem _ hb')
      refine ⟨w, w1, ?_⟩
      rw [w2, List.map_cons, List.sum_cons]
      unfold Cfg.pair
      rw [if_pos hf, A.zero, zero_add]
    · rw [if_neg hf, if_neg (by rw [h2]; simpa using h3)]
      obtain ⟨w, w1, w2⟩ := ih (vadd acc.1 (C.near pa (P b)).1, acc.2 + (C.near pa (P b)).2) fun b' hb' => h b' (List.mem_cons_of_mem _ hb')
      refine ⟨w, w1, ?_⟩
      rw [w2, List.map_cons, List.sum_cons, A.add]
      conv_rhs => rw [Cfg.pair, if_neg hf]
      ring

/-! ### Sums over all pairs -/

/-- A sum over all pairs and displacements of an antisymmetric quantity vanishes. -/
theorem antisym_sum {ι κ : Type} (P : Finset ι) (Q : Finset κ) (neg : κ → κ) (hneg : ∀ k ∈ Q, neg k ∈ Q) (hinv : ∀ k, neg (neg k) = k) (f : ι → ι → κ → K)
    (hf : ∀ p ∈ P, ∀ q ∈ P, ∀ k ∈ Q, f p q k = - f q p (neg k)) : ∑ p ∈ P, ∑ q ∈ P, ∑ k ∈ Q, f p q k = 0 := by
  have h1 : ∑ p ∈ P, ∑ q ∈ P, ∑ k ∈ Q, f p q k = - ∑ p ∈ P, ∑ q ∈ P, ∑ k ∈ Q, f p q k := by
    conv_rhs => rw [Finset.sum_comm]
    rw [← Finset.sum_neg_distrib]
    refine Finset.sum_congr rfl fun p hp => ?_
    rw [← Finset.sum_neg_distrib]
    refine Finset.sum_congr rfl fun q hq => ?_
    rw [← Finset.sum_neg_distrib]
    refine Finset.sum_nbij' neg neg (fun k hk => hneg k hk) (fun k hk => hneg k hk) (fun k _ => hinv k) (fun k _ => hinv k) fun k hk => ?_
    rw [hf p hp q hq k hk]
  linarith

/-- A sum over a list without repetition that misses only zeros. -/
theorem sum_list_range (l : List Nat) (N : Nat) (hn : l.Nodup) (hl : ∀ b ∈ l, b < N) (f : Nat → K) (hz : ∀ b < N, b ∉ l → f b = 0) :
    (l.map f).sum = ∑ b ∈ Finset.range N, f b := by
  classical
  rw [← List.sum_toFinset f hn]
  refine Finset.sum_subset (fun b hb => Finset.mem_range.2 (hl b (List.mem_toFinset.1 hb))) fun b hb hb' => hz b (Finset.mem_range.1 hb) fun h => hb' (List.mem_toFinset.2 h)

end
end Shamrock.Sph
