import Verif.Props.SphSink
/-! Examples for C63. -/
namespace Shamrock.Sph

def kxV (x y z : ℚ) : V3 ℚ := ⟨x, y, z⟩
def kxP (x v a : V3 ℚ) : Ptcl ℚ := ⟨x, v, a, kxV 0 0 0⟩
/-- Two ranks: the first with two patches (one of them empty), the second with one. -/
def kxW : List (List (List (Ptcl ℚ))) :=
  [[[kxP (kxV 1 0 0) (kxV 0 2 0) (kxV 0 0 0), kxP (kxV 9 0 0) (kxV 1 0 0) (kxV 0 0 0)], []], [[kxP (kxV 0 1 0) (kxV 1 1 0) (kxV 0 0 0), kxP (kxV 20 1 0) (kxV 0 1 0) (kxV 0 0 0)]]]
/-- Two sinks. -/
def kxS : List (Sink ℚ) := [⟨kxV 0 0 0, kxV 0 0 1, kxV 0 0 0, kxV 0 0 0, 2, kxV 0 0 0, 2⟩, ⟨kxV 20 0 0, kxV 0 0 0, kxV 0 0 0, kxV 0 0 0, 3, kxV 0 0 0, 2⟩]
/-- Schedules: descending order. -/
def kxOrd (r k : Nat) : List Nat := (((kxW[r]?.getD [])[k]?.getD []).length |> List.range).reverse

theorem kx_sched : Sched kxW 2 (fun _ => kxOrd) kxOrd := by
  have size : ∀ rk ∈ kxW, ∀ ps ∈ rk, ps.length < 2 ^ 32 := by
    intro rk h ps hp
    simp only [kxW, List.mem_cons, List.not_mem_nil, or_false] at h
    rcases h with rfl | rfl
    · simp only [List.mem_cons, List.not_mem_nil, or_false] at hp
      rcases hp with rfl | rfl <;> simp
    · simp only [List.mem_cons, List.not_mem_nil, or_false] at hp
      rcases hp with rfl <;> simp
  have perm : ∀ (r k : Nat) rk ps, kxW[r]? = some rk → rk[k]? = some ps → (kxOrd r k).Perm (List.range ps.length) := by
    intro r k rk ps h1 h2
    unfold kxOrd
    rw [h1]
    simp only [Option.getD_some]
    rw [h2]
    exact List.reverse_perm _
  exact ⟨size, fun _ r k rk ps _ => perm r k rk ps, perm⟩

theorem kx_state : StateOk (1 : ℚ) kxW kxS ∧ totalTorque (1 : ℚ) kxW kxS = ⟨0, 0, 0⟩ := by
  apply C63_start
  · decide
  · decide +kernel
  · decide +kernel
  · decide +kernel
  · decide +kernel

/-- The first sink takes one particle of each rank, the second one of the second rank. -/
theorem kx_run : (sinkAccretion (fun _ => 7) (fun _ => kxOrd) kxOrd 1 1 kxW kxS).map (fun q => (q.1, q.2.map fun s => (s.mass, s.vel))) =
    some ([[[kxP (kxV 9 0 0) (kxV 1 0 0) (kxV 0 0 0)], []], [[]]], [(4, kxV (1 / 4) (3 / 4) (1 / 2)), (4, kxV 0 (1 / 4) 0)]) := by decide +kernel

/-- C63_flags, C63_takenBy. -/
example : kxW.map (fun r => r.map (flagTable kxS)) = [[[0, noSink], []], [[0, 1]]] := by decide +kernel

/-- C63_accretion. -/
example : ∃ w' s', sinkAccretion (fun _ => 7) (fun _ => kxOrd) kxOrd 1 1 kxW kxS = some (w', s') ∧ momentum 1 w' s' = kxV 2 4 2 := by
  obtain ⟨w', s', h, _, _, _, _, h2, _⟩ := C63_accretion (fun _ => 7) (fun _ => kxOrd) kxOrd (1 : ℚ) 1 (by norm_num) kxW kxS kx_state.1.count kx_state.1.mass kx_sched
  exact ⟨w', s', h, h2.trans (by decide +kernel)⟩

/-- C63_forces: the radii are positive, the forces are not zero. -/
example : (∀ s ∈ kxS, 0 < s.racc) ∧ pull (fun _ => (9 : ℚ)) 81 (kxS[0]) (kxV 9 0 0) = kxV 1 0 0 := by
  constructor
  · exact kx_state.1.racc
  · decide +kernel

/-- SPH forces that are zero. -/
def kxZero (w : List (List (List (Ptcl ℚ)))) : List (List (List (V3 ℚ))) := w.map fun r => r.map fun ps => ps.map fun _ => ⟨0, 0, 0⟩

theorem kx_zero : Forces kxZero ∧ TorqueFree kxZero := by
  have hz : ∀ w, ∀ v ∈ (kxZero w).flatten.flatten, v = ⟨0, 0, 0⟩ := by
    intro w v hv
    simp only [kxZero, List.mem_flatten, List.mem_map] at hv
    obtain ⟨l, ⟨l', ⟨r, _, rfl⟩, h⟩, hl⟩ := hv
    simp only [List.mem_map] at h
    obtain ⟨ps, _, rfl⟩ := h
    simp only [List.mem_map] at hl
    obtain ⟨_, _, rfl⟩ := hl
    rfl
  have zz : ∀ {α : Type} (l : List α), tot (fun _ : α => (⟨0, 0, 0⟩ : V3 ℚ)) l = ⟨0, 0, 0⟩ := by intro α l; simp [tot]
  refine ⟨⟨?_, ?_⟩, ?_⟩
  · intro w
    unfold SameShape kxZero
    simp only [List.map_map, Function.comp_def, List.length_map]
  · intro w
    refine (tot_congr (g := fun _ => ⟨0, 0, 0⟩) fun v hv => hz w v hv).trans (zz _)
  · intro w
    refine (tot_congr (g := fun _ => ⟨0, 0, 0⟩) fun q hq => ?_).trans (zz _)
    obtain ⟨a, b⟩ := q
    have := hz w b (List.of_mem_zip hq).2
    dsimp only
    rw [this]
    simp [cross]

/-- C63_step, C63_history, C63_angular: hypotheses met by the example, with a move that reverses the ranks. -/
example : ∃ w' s', sinkStep (fun _ => (9 : ℚ)) 81 1 1 1 (fun _ => 7) (fun _ => kxOrd) kxOrd List.reverse [kxZero, kxZero] kxW kxS = some (w', s') ∧ momentum 1 w' s' = kxV 2 4 2 ∧
    Relation.ReflTransGen (StepRel (fun _ => (9 : ℚ)) 81 1 1) (kxW, kxS) (w', s') := by
  have hmv : Moves (List.reverse : List (List (List (Ptcl ℚ))) → _) := by
    intro w
    apply List.Perm.map
    unfold particles
    exact (List.reverse_perm w).flatten.flatten
  have hf : ∀ f ∈ [kxZero, kxZero], Forces f := by
    intro f hf
    simp at hf
    subst hf
    exact kx_zero.1
  obtain ⟨w', s', h, _, _, h2⟩ := C63_step (fun _ => (9 : ℚ)) 81 1 1 1 (by norm_num) (fun _ => 7) (fun _ => kxOrd) kxOrd List.reverse hmv [kxZero, kxZero] hf (by simp) kxW kxS kx_state.1 kx_sched
  exact ⟨w', s', h, h2.trans (by decide +kernel), Relation.ReflTransGen.single ⟨1, _, _, _, _, _, kx_sched, hmv, hf, by simp, h⟩⟩

/-- A sink and two particles, whose forces balance; the first particle is within the accretion radius. -/
def kyW : List (List (List (Ptcl ℚ))) := [[[kxP (kxV (1 / 2) 0 0) (kxV 0 0 0) (kxV 0 1 0), kxP (kxV (1 / 2) 10 0) (kxV 0 0 0) (kxV 0 (-1) 0)]]]
def kyS : List (Sink ℚ) := [⟨kxV 0 0 0, kxV 0 0 0, kxV 0 0 0, kxV 0 0 0, 1, kxV 0 0 0, 1⟩]

/-- The angular momentum is not kept exactly when a particle with an acceleration is taken, although forces and torques balance at the start and all later forces are zero:
it is zero before the step and `1/8` after it. -/
theorem C63_angular_drift : StateOk 1 kyW kyS ∧ totalTorque 1 kyW kyS = ⟨0, 0, 0⟩ ∧ angularMomentum 1 kyW kyS = ⟨0, 0, 0⟩ ∧
    (sinkStep (fun _ => (9 : ℚ)) 0 1 1 1 (fun _ => 7) (fun _ _ _ => [0, 1]) (fun _ _ => [0, 1]) id [kxZero] kyW kyS).map (fun q => angularMomentum 1 q.1 q.2) = some ⟨0, 0, 1 / 8⟩ := by
  refine ⟨⟨by decide, by decide +kernel, by decide +kernel, by decide +kernel⟩, by decide +kernel, by decide +kernel, by decide +kernel⟩

end Shamrock.Sph
