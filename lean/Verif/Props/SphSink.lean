import Verif.Proof.SphSinkStep
import Mathlib.Logic.Relation
import Mathlib.Data.Rat.Defs
import Mathlib.Algebra.Order.Ring.Rat
import Mathlib.Tactic.NormNum
/-! C63: sink particles: accretion, mutual forces and the leapfrog step keep mass and momentum. -/
namespace Shamrock.Sph

section
variable {K : Type} [Field K] [LinearOrder K] [IsStrictOrderedRing K]

/-- The table has, for every particle, the first sink within whose accretion radius it is, and `u32_max` if there is none. -/
theorem C63_flags (sinks : List (Sink K)) (hn : sinks.length < 2 ^ 32) (ps : List (Ptcl K)) : flagTable sinks ps = ps.map (fun p => (takenBy sinks p).getD noSink) ∧
    ∀ p, ∀ i, takenBy sinks p = some i → i < noSink := by
  constructor
  · unfold flagTable
    apply List.map_congr_left
    intro p _
    cases h : takenBy sinks p with
    | none => exact (flag_none hn p).2 h
    | some i => exact (flag_some hn p i (takenBy_lt h)).2 h
  · intro p i h
    have := takenBy_lt h
    unfold noSink
    omega

/-- What `takenBy` says. -/
theorem C63_takenBy (sinks : List (Sink K)) (p : Ptcl K) (i : Nat) : takenBy sinks p = some i ↔
    ∃ s, sinks[i]? = some s ∧ (p.x.x - s.pos.x) ^ 2 + (p.x.y - s.pos.y) ^ 2 + (p.x.z - s.pos.z) ^ 2 ≤ s.racc ^ 2 ∧
      ∀ (j : Nat) t, j < i → sinks[j]? = some t → ¬ (p.x.x - t.pos.x) ^ 2 + (p.x.y - t.pos.y) ^ 2 + (p.x.z - t.pos.z) ^ 2 ≤ t.racc ^ 2 := by
  unfold takenBy
  rw [List.findIdx?_eq_some_iff_getElem]
  constructor
  · rintro ⟨h, h1, h2⟩
    refine ⟨sinks[i], List.getElem?_eq_getElem h, by simpa using h1, ?_⟩
    intro j t hj ht
    have := h2 j hj
    obtain ⟨hj', rfl⟩ := List.getElem?_eq_some_iff.1 ht
    simpa using this
  · rintro ⟨s, hs, h1, h2⟩
    obtain ⟨hi, rfl⟩ := List.getElem?_eq_some_iff.1 hs
    refine ⟨hi, by simpa using h1, ?_⟩
    intro j hj
    have := h2 j _ hj (List.getElem?_eq_getElem (by omega))
    simpa using this

/-- The accretion, for all sizes, distributions over ranks and patches and schedules: it runs; the particles that remain are those that no sink takes, in their order; every sink takes
what it must; total mass, momentum, mass times position and mass times acceleration are the same; the angular momentum of orbits and spins differs by `dt / 2` times the moment of the
accelerations of the particles taken. -/
theorem C63_accretion (garbage : Nat → Nat) (order : Nat → Nat → Nat → List Nat) (orderE : Nat → Nat → List Nat) (pm dt : K) (hp : 0 < pm) (w : List (List (List (Ptcl K))))
    (sinks : List (Sink K)) (hn : sinks.length < 2 ^ 32) (hm : ∀ s ∈ sinks, 0 ≤ s.mass) (S : Sched w sinks.length order orderE) :
    ∃ w' sinks', sinkAccretion garbage order orderE pm dt w sinks = some (w', sinks') ∧
      w' = w.map (fun r => r.map fun ps => ps.filter fun p => decide (takenBy sinks p = none)) ∧ sinks'.length = sinks.length ∧
      (∀ i s s', sinks[i]? = some s → sinks'[i]? = some s' → Accreted pm dt s ((particles w).filter fun p => decide (takenBy sinks p = some i)) s') ∧
      totalMass pm w' sinks' = totalMass pm w sinks ∧ momentum pm w' sinks' = momentum pm w sinks ∧ massCentre pm w' sinks' = massCentre pm w sinks ∧
      totalForce pm w' sinks' = totalForce pm w sinks ∧
      angularMomentum pm w' sinks' = vadd (angularMomentum pm w sinks) (smul (dt / 2) (takenMoment pm w sinks)) := by
  obtain ⟨w', sinks', h, H⟩ := accretion_ok garbage order orderE pm dt hp w sinks hn hm S
  exact ⟨w', sinks', h, H.gas, H.count, H.each, H.mass, H.mom, H.com, H.force, H.ang⟩

/-- The forces of sinks and gas on each other, and of the sinks on each other: what is computed, sums and moments are zero. -/
theorem C63_forces (sqrt : K → K) (G eps pm : K) (w : List (List (List (Ptcl K)))) (sinks : List (Sink K)) (hr : ∀ s ∈ sinks, 0 < s.racc) :
    ∃ w' sinks', sphSinkForces sqrt G pm w sinks = some (w', sinks') ∧
      w' = w.map (fun r => r.map fun ps => ps.map fun p => { p with ext := tot (fun s => smul (-s.mass) (pull sqrt G s p.x)) sinks }) ∧
      sinks' = sinks.map (fun s => { s with accSph := tot (fun p => smul pm (pull sqrt G s p.x)) (particles w) }) ∧
      vadd (tot (fun p => smul pm p.ext) (particles w')) (tot (fun s => smul s.mass s.accSph) sinks') = ⟨0, 0, 0⟩ ∧
      vadd (tot (fun p => smul pm (cross p.x p.ext)) (particles w')) (tot (fun s => smul s.mass (cross s.pos s.accSph)) sinks') = ⟨0, 0, 0⟩ ∧
      extForces sqrt G eps sinks = sinks.map (fun s => { s with accExt := tot (sinkPull sqrt G eps s) sinks }) ∧
      tot (fun s => smul s.mass s.accExt) (extForces sqrt G eps sinks) = ⟨0, 0, 0⟩ ∧
      tot (fun s => smul s.mass (cross s.pos s.accExt)) (extForces sqrt G eps sinks) = ⟨0, 0, 0⟩ := by
  have g := gasForces_sum sqrt G pm (particles w) sinks
  rw [← particles_map] at g
  refine ⟨_, _, sphSinkForces_ok sqrt G pm w sinks hr, rfl, rfl, g.1, g.2, ?_, (extForces_sum sqrt G eps sinks).1, (extForces_sum sqrt G eps sinks).2⟩
  unfold extForces
  apply List.map_congr_left
  intro s _
  rw [sinkExt_eq]

/-- A step runs, keeps mass and momentum of gas and sinks together, and leaves a state with the same hypotheses. -/
theorem C63_step (sqrt : K → K) (G eps pm dt : K) (hp : 0 < pm) (garbage : Nat → Nat) (order : Nat → Nat → Nat → List Nat) (orderE : Nat → Nat → List Nat)
    (move : List (List (List (Ptcl K))) → List (List (List (Ptcl K)))) (hmove : Moves move) (sphs : List (List (List (List (Ptcl K))) → List (List (List (V3 K)))))
    (hf : ∀ f ∈ sphs, Forces f) (hne : sphs ≠ []) (w : List (List (List (Ptcl K)))) (sinks : List (Sink K)) (H : StateOk pm w sinks) (S : Sched w sinks.length order orderE) :
    ∃ w' sinks', sinkStep sqrt G eps pm dt garbage order orderE move sphs w sinks = some (w', sinks') ∧ StateOk pm w' sinks' ∧
      totalMass pm w' sinks' = totalMass pm w sinks ∧ momentum pm w' sinks' = momentum pm w sinks := by
  obtain ⟨w1, s1, h1, H1⟩ := accretion_ok garbage order orderE pm dt hp w sinks H.count H.mass S
  have hget : ∀ t ∈ s1, ∃ (i : Nat) (s : Sink K), sinks[i]? = some s ∧ s1[i]? = some t := by
    intro t ht
    obtain ⟨i, hi, rfl⟩ := List.getElem_of_mem ht
    exact ⟨i, sinks[i]'(by rw [← H1.count]; exact hi), List.getElem?_eq_getElem _, List.getElem?_eq_getElem hi⟩
  have K1 : StateOk pm w1 s1 := by
    constructor
    · rw [H1.count]; exact H.count
    · intro t ht
      obtain ⟨i, s, a, b⟩ := hget t ht
      rw [(H1.each i s t a b).mass]
      have := H.mass s (List.mem_of_getElem? a)
      have : 0 ≤ pm * ((taken sinks i (particles w)).length : K) := mul_nonneg hp.le (Nat.cast_nonneg _)
      linarith
    · intro t ht
      obtain ⟨i, s, a, b⟩ := hget t ht
      rw [(H1.each i s t a b).racc]
      exact H.racc s (List.mem_of_getElem? a)
    · rw [H1.force]; exact H.balance
  obtain ⟨w', s', h2, K2, m2, p2, _⟩ := rest_ok sqrt G eps pm dt move hmove sphs hf hne w1 s1 K1
  refine ⟨w', s', ?_, K2, m2.trans H1.mass, p2.trans H1.mom⟩
  rw [sinkStep_eq, h1, Option.bind_some]
  exact h2

/-- One step of a history. -/
def StepRel (sqrt : K → K) (G eps pm : K) (st st' : List (List (List (Ptcl K))) × List (Sink K)) : Prop :=
  ∃ dt garbage order orderE move sphs, Sched st.1 st.2.length order orderE ∧ Moves move ∧ (∀ f ∈ sphs, Forces f) ∧ sphs ≠ [] ∧
    sinkStep sqrt G eps pm dt garbage order orderE move sphs st.1 st.2 = some st'

/-- All histories of steps, of any length, with any time steps, numbers of corrector turns, moves and schedules: mass and momentum are those of the start. -/
theorem C63_history (sqrt : K → K) (G eps pm : K) (hp : 0 < pm) (st st' : List (List (List (Ptcl K))) × List (Sink K)) (H : StateOk pm st.1 st.2)
    (h : Relation.ReflTransGen (StepRel sqrt G eps pm) st st') :
    StateOk pm st'.1 st'.2 ∧ totalMass pm st'.1 st'.2 = totalMass pm st.1 st.2 ∧ momentum pm st'.1 st'.2 = momentum pm st.1 st.2 := by
  induction h with
  | refl => exact ⟨H, rfl, rfl⟩
  | tail _ hs ih =>
    obtain ⟨i1, i2, i3⟩ := ih
    obtain ⟨dt, garbage, order, orderE, move, sphs, S, hmove, hf, hne, hrun⟩ := hs
    obtain ⟨w', s', h1, h2, h3, h4⟩ := C63_step sqrt G eps pm dt hp garbage order orderE move hmove sphs hf hne _ _ i1 S
    rw [hrun, Option.some.injEq] at h1
    subst h1
    exact ⟨h2, h3.trans i2, h4.trans i3⟩

/-- When the particles have no acceleration (as at the start of a simulation) and neither have the sinks, the forces balance. -/
theorem C63_start (pm : K) (w : List (List (List (Ptcl K)))) (sinks : List (Sink K)) (hn : sinks.length < 2 ^ 32) (hm : ∀ s ∈ sinks, 0 ≤ s.mass) (hr : ∀ s ∈ sinks, 0 < s.racc)
    (ha : ∀ p ∈ particles w, p.a = ⟨0, 0, 0⟩) (hs : ∀ s ∈ sinks, s.accSph = ⟨0, 0, 0⟩) : StateOk pm w sinks ∧ totalTorque pm w sinks = ⟨0, 0, 0⟩ := by
  have z : ∀ {α : Type} (l : List α), tot (fun _ : α => (⟨0, 0, 0⟩ : V3 K)) l = ⟨0, 0, 0⟩ := by intro α l; simp [tot]
  refine ⟨⟨hn, hm, hr, ?_⟩, ?_⟩
  · have h1 : tot (fun p => smul pm p.a) (particles w) = ⟨0, 0, 0⟩ := (tot_congr fun p hp => by rw [ha p hp]; simp [smul]).trans (z (particles w))
    have h2 : tot (fun s => smul s.mass s.accSph) sinks = ⟨0, 0, 0⟩ := (tot_congr fun s h => by rw [hs s h]; simp [smul]).trans (z sinks)
    unfold totalForce
    rw [h1, h2]
    simp [vadd]
  · have h1 : tot (fun p => smul pm (cross p.x p.a)) (particles w) = ⟨0, 0, 0⟩ := (tot_congr fun p hp => by rw [ha p hp]; simp [smul, cross]).trans (z (particles w))
    have h2 : tot (fun s => smul s.mass (cross s.pos s.accSph)) sinks = ⟨0, 0, 0⟩ := (tot_congr fun s h => by rw [hs s h]; simp [smul, cross]).trans (z sinks)
    unfold totalTorque
    rw [h1, h2]
    simp [vadd]

/-- Without periodic moves and with torque-free SPH forces, the angular momentum of a step changes by `dt / 2` times the moment, about the old places of the sinks, of the forces on the
sinks at their new places after accretion. -/
theorem C63_angular (sqrt : K → K) (G eps pm dt : K) (hp : 0 < pm) (garbage : Nat → Nat) (order : Nat → Nat → Nat → List Nat) (orderE : Nat → Nat → List Nat)
    (move : List (List (List (Ptcl K))) → List (List (List (Ptcl K)))) (hmove : MovesFixed move) (sphs : List (List (List (List (Ptcl K))) → List (List (List (V3 K)))))
    (hf : ∀ f ∈ sphs, Forces f ∧ TorqueFree f) (hne : sphs ≠ []) (w : List (List (List (Ptcl K)))) (sinks : List (Sink K)) (H : StateOk pm w sinks)
    (hT : totalTorque pm w sinks = ⟨0, 0, 0⟩) (S : Sched w sinks.length order orderE) :
    ∃ w1 s1 w' sinks', sinkAccretion garbage order orderE pm dt w sinks = some (w1, s1) ∧ sinkStep sqrt G eps pm dt garbage order orderE move sphs w sinks = some (w', sinks') ∧
      totalTorque pm w' sinks' = ⟨0, 0, 0⟩ ∧
      angularMomentum pm w' sinks' = vadd (angularMomentum pm w sinks) (smul (dt / 2) (tot (fun q : Sink K × Sink K => cross (vsub q.2.pos q.1.pos) (smul q.2.mass q.2.accSph)) (sinks.zip s1))) ∧
      ((∀ p ∈ particles w, takenBy sinks p = none) → angularMomentum pm w' sinks' = angularMomentum pm w sinks) := by
  obtain ⟨w1, s1, h1, H1⟩ := accretion_ok garbage order orderE pm dt hp w sinks H.count H.mass S
  have hget : ∀ t ∈ s1, ∃ (i : Nat) (s : Sink K), sinks[i]? = some s ∧ s1[i]? = some t := by
    intro t ht
    obtain ⟨i, hi, rfl⟩ := List.getElem_of_mem ht
    exact ⟨i, sinks[i]'(by rw [← H1.count]; exact hi), List.getElem?_eq_getElem _, List.getElem?_eq_getElem hi⟩
  have K1 : StateOk pm w1 s1 := by
    constructor
    · rw [H1.count]; exact H.count
    · intro t ht
      obtain ⟨i, s, a, b⟩ := hget t ht
      rw [(H1.each i s t a b).mass]
      have := H.mass s (List.mem_of_getElem? a)
      have : 0 ≤ pm * ((taken sinks i (particles w)).length : K) := mul_nonneg hp.le (Nat.cast_nonneg _)
      linarith
    · intro t ht
      obtain ⟨i, s, a, b⟩ := hget t ht
      rw [(H1.each i s t a b).racc]
      exact H.racc s (List.mem_of_getElem? a)
    · rw [H1.force]; exact H.balance
  have hmv : Moves move := fun w => (hmove w).map _
  obtain ⟨w', s', h2, _, _, _, hL⟩ := rest_ok sqrt G eps pm dt move hmv sphs (fun f h => (hf f h).1) hne w1 s1 K1
  obtain ⟨t2, l2⟩ := hL hmove fun f h => (hf f h).2
  -- the sinks after accretion as a function of the sinks before
  let acc : Nat → Sink K → Sink K := fun i s => (s1[i]?).getD s
  have e1 : s1 = sinks.zipIdx.map fun q => acc q.2 q.1 := by
    apply List.ext_getElem (by simp [H1.count])
    intro i a b
    simp [acc, a]
  have e2 : sinks.zip s1 = sinks.zipIdx.map fun q => (q.1, acc q.2 q.1) := by
    apply List.ext_getElem (by simp [H1.count])
    intro i a b
    have : i < s1.length := by simp at b; rw [H1.count]; exact b
    simp [acc, this]
  have eacc : ∀ k s, sinks[k]? = some s → Accreted pm dt s (taken sinks k (particles w)) (acc k s) := by
    intro k s hk
    have hk' : k < s1.length := by rw [H1.count]; exact (List.getElem?_eq_some_iff.1 hk).1
    apply H1.each k s _ hk
    simp [acc, hk']
  have key : angularMomentum pm w' s' = vadd (angularMomentum pm w sinks) (smul (dt / 2) (tot (fun q : Sink K × Sink K => cross (vsub q.2.pos q.1.pos) (smul q.2.mass q.2.accSph)) (sinks.zip s1))) := by
    rw [l2, H1.ang]
    have τ : vadd (takenMoment pm w sinks) (totalTorque pm w1 s1) = tot (fun q : Sink K × Sink K => cross (vsub q.2.pos q.1.pos) (smul q.2.mass q.2.accSph)) (sinks.zip s1) := by
      have b := hT
      unfold totalTorque at b ⊢
      rw [H1.gas, kept_world, e2, tot_map]
      rw [part_tot sinks _ (particles w)] at b
      have hs := sinks_tot (fun s => smul s.mass (cross s.pos s.accSph)) acc (fun q => vadd (cross (vsub (acc q.2 q.1).pos q.1.pos) (smul (acc q.2 q.1).mass (acc q.2 q.1).accSph))
        (cross q.1.pos (tot (fun p => smul pm p.a) (taken sinks q.2 (particles w))))) sinks 0 fun k s hk => by
          rw [Nat.zero_add]
          have ha := (eacc k s hk).acc
          dsimp only
          have a1 := congrArg V3.x ha
          have a2 := congrArg V3.y ha
          have a3 := congrArg V3.z ha
          simp only [vadd, smul] at a1 a2 a3
          apply v3_ext <;> simp only [vadd, vsub, smul, cross]
          · linear_combination s.pos.y * a3 - s.pos.z * a2
          · linear_combination s.pos.z * a1 - s.pos.x * a3
          · linear_combination s.pos.x * a2 - s.pos.y * a1
      rw [← e1, tot_vadd] at hs
      rw [hs]
      have hm : takenMoment pm w sinks = vsub (tot (fun q => tot (fun p => smul pm (cross p.x p.a)) (taken sinks q.2 (particles w))) sinks.zipIdx)
          (tot (fun q : Sink K × Nat => cross q.1.pos (tot (fun p => smul pm p.a) (taken sinks q.2 (particles w)))) sinks.zipIdx) := by
        unfold takenMoment
        have e : ∀ q : Sink K × Nat, tot (fun p => smul pm (cross p.x p.a)) (taken sinks q.2 (particles w)) =
            vadd (tot (fun p => smul pm (cross (vsub p.x q.1.pos) p.a)) (taken sinks q.2 (particles w))) (cross q.1.pos (tot (fun p => smul pm p.a) (taken sinks q.2 (particles w)))) := by
          intro q
          rw [tot_cross, ← tot_vadd]
          apply tot_congr
          intro p _
          apply v3_ext <;> simp only [vadd, vsub, smul, cross] <;> ring
        simp only [e]
        rw [tot_vadd]
        apply v3_ext <;> simp only [vadd, vsub] <;> ring
      rw [hm]
      have b1 := congrArg V3.x b
      have b2 := congrArg V3.y b
      have b3 := congrArg V3.z b
      simp only [vadd] at b1 b2 b3
      apply v3_ext <;> simp only [vadd, vsub]
      · linear_combination b1
      · linear_combination b2
      · linear_combination b3
    rw [← τ]
    apply v3_ext <;> simp only [vadd, smul] <;> ring
  refine ⟨w1, s1, w', s', h1, ?_, t2, key, ?_⟩
  · rw [sinkStep_eq, h1, Option.bind_some]; exact h2
  · intro hnone
    have e0 : ∀ i, taken sinks i (particles w) = [] := by
      intro i
      unfold taken
      rw [List.filter_eq_nil_iff]
      intro p hp'
      simp [hnone p hp']
    have z : tot (fun q : Sink K × Sink K => cross (vsub q.2.pos q.1.pos) (smul q.2.mass q.2.accSph)) (sinks.zip s1) = ⟨0, 0, 0⟩ := by
      rw [e2, tot_map]
      refine (tot_congr (g := fun _ => ⟨0, 0, 0⟩) fun q hq => ?_).trans (by simp [tot])
      have A := eacc q.2 q.1 (List.mem_zipIdx_iff_getElem?.1 hq)
      rw [e0] at A
      have hm := A.mass
      have hc := A.com
      simp only [List.length_nil, Nat.cast_zero, mul_zero, add_zero] at hm
      rw [tot_nil, hm] at hc
      have c1 := congrArg V3.x hc
      have c2 := congrArg V3.y hc
      have c3 := congrArg V3.z hc
      simp only [vadd, smul] at c1 c2 c3
      dsimp only
      rw [hm]
      apply v3_ext <;> simp only [vsub, smul, cross]
      · linear_combination c2 * (acc q.2 q.1).accSph.z - c3 * (acc q.2 q.1).accSph.y
      · linear_combination c3 * (acc q.2 q.1).accSph.x - c1 * (acc q.2 q.1).accSph.z
      · linear_combination c1 * (acc q.2 q.1).accSph.y - c2 * (acc q.2 q.1).accSph.x
    rw [key, z]
    apply v3_ext <;> simp [vadd, smul]

end
end Shamrock.Sph
