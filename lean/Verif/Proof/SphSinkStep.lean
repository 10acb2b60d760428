import Verif.Proof.SphSinkForce
/-! Sink particles: the time step. -/
namespace Shamrock.Sph

section
variable {K : Type} [Field K] [LinearOrder K] [IsStrictOrderedRing K]

theorem zip_flatten {α β γ : Type} (g : α × β → γ) : ∀ (l : List (List α)) (r : List (List β)), l.map List.length = r.map List.length →
    ((l.zip r).map fun q => (q.1.zip q.2).map g).flatten = (l.flatten.zip r.flatten).map g := by
  intro l
  induction l with
  | nil => intro r _; simp
  | cons a l ih =>
    intro r h
    cases r with
    | nil => simp at h
    | cons b r =>
      simp only [List.map_cons, List.cons.injEq] at h
      rw [List.zip_cons_cons, List.map_cons, List.flatten_cons, ih r h.2, List.flatten_cons, List.flatten_cons, List.zip_append h.1, List.map_append]

/-- Specification: as many values as particles, patch by patch. -/
def SameShape {β : Type} (w : List (List (List (Ptcl K)))) (s : List (List (List β))) : Prop := s.map (fun r => r.map List.length) = w.map fun r => r.map List.length

theorem shape_flat {β : Type} {w : List (List (List (Ptcl K)))} {s : List (List (List β))} (h : SameShape w s) :
    w.map List.length = s.map List.length ∧ w.flatten.map List.length = s.flatten.map List.length ∧ (particles w).length = s.flatten.flatten.length := by
  unfold SameShape at h
  have h1 : w.map List.length = s.map List.length := by
    have := congrArg (List.map List.length) h
    simp only [List.map_map, Function.comp_def, List.length_map] at this
    exact this.symm
  have h2 : w.flatten.map List.length = s.flatten.map List.length := by
    rw [List.map_flatten, List.map_flatten, h]
  refine ⟨h1, h2, ?_⟩
  unfold particles
  rw [List.length_flatten, List.length_flatten, h2]

theorem correct_flat (dt : K) {w : List (List (List (Ptcl K)))} {s : List (List (List (V3 K)))} (h : SameShape w s) :
    particles (correctWorld dt w s) = ((particles w).zip s.flatten.flatten).map fun q => correctGas dt q.1 q.2 := by
  obtain ⟨h1, h2, _⟩ := shape_flat h
  unfold correctWorld particles correctPatch
  rw [zip_flatten (fun q : List (Ptcl K) × List (V3 K) => (q.1.zip q.2).map fun q => correctGas dt q.1 q.2) w s h1, zip_flatten _ _ _ h2]

/-- What a corrector turn does not change. -/
def key (dt : K) (p : Ptcl K) : V3 K × V3 K × V3 K := (p.x, vsub p.v (smul (dt / 2) p.a), p.ext)

theorem correct_key (dt : K) (p : Ptcl K) (s : V3 K) : key dt (correctGas dt p s) = key dt p := by
  unfold key correctGas
  simp only [Prod.mk.injEq, true_and, and_true]
  apply v3_ext <;> simp only [vadd, vsub, smul] <;> ring

theorem turn_key (dt : K) {w : List (List (List (Ptcl K)))} {s : List (List (List (V3 K)))} (h : SameShape w s) :
    (particles (correctWorld dt w s)).map (key dt) = (particles w).map (key dt) := by
  rw [correct_flat dt h, List.map_map]
  rw [show (key dt ∘ fun q : Ptcl K × V3 K => correctGas dt q.1 q.2) = key dt ∘ Prod.fst from funext fun q => correct_key dt q.1 q.2]
  rw [← List.map_map, List.map_fst_zip (by rw [(shape_flat h).2.2])]

/-- Specification: the SPH forces are as many as the particles and their sum is zero. -/
structure Forces (f : List (List (List (Ptcl K))) → List (List (List (V3 K)))) : Prop where
  shape : ∀ w, SameShape w (f w)
  zero : ∀ w, tot id (f w).flatten.flatten = ⟨0, 0, 0⟩

/-- Specification: their moment is zero. -/
def TorqueFree (f : List (List (List (Ptcl K))) → List (List (List (V3 K)))) : Prop :=
  ∀ w, tot (fun q : Ptcl K × V3 K => cross q.1.x q.2) ((particles w).zip (f w).flatten.flatten) = ⟨0, 0, 0⟩

theorem turns_key (dt : K) (fs : List (List (List (List (Ptcl K))) → List (List (List (V3 K))))) (hf : ∀ f ∈ fs, Forces f) : ∀ w,
    (particles (fs.foldl (fun w f => correctWorld dt w (f w)) w)).map (key dt) = (particles w).map (key dt) := by
  induction fs with
  | nil => intro w; rfl
  | cons f fs ih =>
    intro w
    rw [List.foldl_cons, ih fun g hg => hf g (by simp [hg]), turn_key dt ((hf f (by simp)).shape w)]

theorem tot_zip_fst {β : Type} (F : Ptcl K → V3 K) (l : List (Ptcl K)) (r : List β) (h : l.length = r.length) : tot (fun q : Ptcl K × β => F q.1) (l.zip r) = tot F l := by
  rw [← tot_map F Prod.fst, List.map_fst_zip (by omega)]

theorem tot_zip_snd (l : List (Ptcl K)) (r : List (V3 K)) (h : l.length = r.length) : tot (fun q : Ptcl K × V3 K => q.2) (l.zip r) = tot id r := by
  rw [show (fun q : Ptcl K × V3 K => q.2) = fun q => id (Prod.snd q) from rfl, ← tot_map id Prod.snd, List.map_snd_zip (by omega)]

theorem vadd_zero_left (v : V3 K) : vadd ⟨0, 0, 0⟩ v = v := by simp [vadd]
theorem vadd_zero_right (v : V3 K) : vadd v ⟨0, 0, 0⟩ = v := by simp [vadd]

theorem turns_acc (dt : K) (fs : List (List (List (List (Ptcl K))) → List (List (List (V3 K))))) (hf : ∀ f ∈ fs, Forces f) (hne : fs ≠ []) (w : List (List (List (Ptcl K)))) :
    tot (fun p => p.a) (particles (fs.foldl (fun w f => correctWorld dt w (f w)) w)) = tot (fun p => p.ext) (particles (fs.foldl (fun w f => correctWorld dt w (f w)) w)) ∧
    ((∀ f ∈ fs, TorqueFree f) → tot (fun p => cross p.x p.a) (particles (fs.foldl (fun w f => correctWorld dt w (f w)) w)) =
      tot (fun p => cross p.x p.ext) (particles (fs.foldl (fun w f => correctWorld dt w (f w)) w))) := by
  obtain ⟨fs', f, rfl⟩ : ∃ fs' f, fs = fs' ++ [f] := ⟨fs.dropLast, fs.getLast hne, (List.dropLast_append_getLast hne).symm⟩
  rw [List.foldl_append, List.foldl_cons, List.foldl_nil]
  generalize fs'.foldl (fun w f => correctWorld dt w (f w)) w = w1
  have H := hf f (by simp)
  have hl := (shape_flat (H.shape w1)).2.2
  rw [correct_flat dt (H.shape w1), tot_map, tot_map, tot_map, tot_map]
  simp only [correctGas]
  constructor
  · rw [tot_vadd, tot_zip_snd _ _ hl, H.zero, vadd_zero_left]
  · intro ht
    have e : (fun q : Ptcl K × V3 K => cross q.1.x (vadd q.2 q.1.ext)) = fun q => vadd (cross q.1.x q.2) (cross q.1.x q.1.ext) := by
      funext q
      apply v3_ext <;> simp only [vadd, cross] <;> ring
    rw [e, tot_vadd, ht f (by simp) w1, vadd_zero_left]

/-! ### The step -/

/-- Specification: the hypotheses on a state: no more than `2^32` sinks, of positive mass and radius, the gas and the sinks exert opposite forces on each other. -/
structure StateOk (pm : K) (w : List (List (List (Ptcl K)))) (sinks : List (Sink K)) : Prop where
  count : sinks.length < 2 ^ 32
  mass : ∀ s ∈ sinks, 0 ≤ s.mass
  racc : ∀ s ∈ sinks, 0 < s.racc
  balance : totalForce pm w sinks = ⟨0, 0, 0⟩

/-- Specification: the moment of the forces at the start of a step. -/
def totalTorque (pm : K) (w : List (List (List (Ptcl K)))) (sinks : List (Sink K)) : V3 K :=
  vadd (tot (fun p => smul pm (cross p.x p.a)) (particles w)) (tot (fun s => smul s.mass (cross s.pos s.accSph)) sinks)

/-- The part of the step after accretion. -/
def stepRest (sqrt : K → K) (G eps pm dt : K) (move : List (List (List (Ptcl K))) → List (List (List (Ptcl K)))) (sphs : List (List (List (List (Ptcl K))) → List (List (List (V3 K)))))
    (w : List (List (List (Ptcl K)))) (sinks : List (Sink K)) : Option (List (List (List (Ptcl K))) × List (Sink K)) :=
  let s1 := predictorSinks sqrt G eps dt sinks
  let w1 := w.map fun r => r.map fun ps => ps.map (predictorGas dt)
  let s2 := extForces sqrt G eps s1
  (sphSinkForces sqrt G pm w1 s2).bind fun st2 => some (sphs.foldl (fun w f => correctWorld dt w (f w)) (move st2.1), st2.2.map (kickSink dt))

theorem sinkStep_eq (sqrt : K → K) (G eps pm dt : K) (garbage : Nat → Nat) (order : Nat → Nat → Nat → List Nat) (orderE : Nat → Nat → List Nat)
    (move : List (List (List (Ptcl K))) → List (List (List (Ptcl K)))) (sphs : List (List (List (List (Ptcl K))) → List (List (List (V3 K))))) (w : List (List (List (Ptcl K)))) (sinks : List (Sink K)) :
    sinkStep sqrt G eps pm dt garbage order orderE move sphs w sinks = (sinkAccretion garbage order orderE pm dt w sinks).bind fun st => stepRest sqrt G eps pm dt move sphs st.1 st.2 := rfl

theorem particles_map (f : Ptcl K → Ptcl K) (w : List (List (List (Ptcl K)))) : particles (w.map fun r => r.map fun ps => ps.map f) = (particles w).map f := by
  unfold particles
  rw [List.map_flatten, List.map_flatten]

/-- Specification: a move of particles between patches and ranks that may change positions. -/
def Moves (move : List (List (List (Ptcl K))) → List (List (List (Ptcl K)))) : Prop :=
  ∀ w, ((particles (move w)).map fun p => (p.v, p.a, p.ext)).Perm ((particles w).map fun p => (p.v, p.a, p.ext))

/-- Specification: a move that changes nothing but the place where a particle is kept. -/
def MovesFixed (move : List (List (List (Ptcl K))) → List (List (List (Ptcl K)))) : Prop := ∀ w, (particles (move w)).Perm (particles w)

theorem rest_ok (sqrt : K → K) (G eps pm dt : K) (move : List (List (List (Ptcl K))) → List (List (List (Ptcl K)))) (hmove : Moves move)
    (sphs : List (List (List (List (Ptcl K))) → List (List (List (V3 K))))) (hf : ∀ f ∈ sphs, Forces f) (hne : sphs ≠ [])
    (w : List (List (List (Ptcl K)))) (sinks : List (Sink K)) (H : StateOk pm w sinks) :
    ∃ w' sinks', stepRest sqrt G eps pm dt move sphs w sinks = some (w', sinks') ∧ StateOk pm w' sinks' ∧ totalMass pm w' sinks' = totalMass pm w sinks ∧
      momentum pm w' sinks' = momentum pm w sinks ∧
      (MovesFixed move → (∀ f ∈ sphs, TorqueFree f) → totalTorque pm w' sinks' = ⟨0, 0, 0⟩ ∧
        angularMomentum pm w' sinks' = vadd (angularMomentum pm w sinks) (smul (dt / 2) (totalTorque pm w sinks))) := by
  have hr2 : ∀ s ∈ extForces sqrt G eps (predictorSinks sqrt G eps dt sinks), 0 < s.racc := by
    intro s hs
    simp only [extForces, predictorSinks, List.map_map, List.mem_map, Function.comp] at hs
    obtain ⟨t, ht, rfl⟩ := hs
    exact H.racc t ht
  unfold stepRest
  dsimp only
  rw [sphSinkForces_ok sqrt G pm _ _ hr2, Option.bind_some]
  dsimp only
  rw [particles_map]
  set s2 := extForces sqrt G eps (predictorSinks sqrt G eps dt sinks) with hs2
  set w2 := (w.map fun r => r.map fun ps => ps.map (predictorGas dt)).map fun r => r.map fun ps => ps.map (withExt sqrt G s2) with hw2
  set w3 := move w2 with hw3
  set w4 := sphs.foldl (fun w f => correctWorld dt w (f w)) w3 with hw4
  have p2 : particles w2 = ((particles w).map (predictorGas dt)).map (withExt sqrt G s2) := by
    rw [hw2, particles_map, particles_map]
  have hkey := turns_key dt sphs hf w3
  obtain ⟨hacc, htorq⟩ := turns_acc dt sphs hf hne w3
  rw [← hw4] at hkey hacc htorq
  -- sums over the final particles
  have k4 : ∀ F : V3 K × V3 K × V3 K → V3 K, tot (fun p => F (key dt p)) (particles w4) = tot (fun p => F (key dt p)) (particles w3) := by
    intro F
    rw [← tot_map F (key dt), hkey, tot_map]
  have k3 : ∀ F : V3 K × V3 K × V3 K → V3 K, tot (fun p : Ptcl K => F (p.v, p.a, p.ext)) (particles w3) = tot (fun p : Ptcl K => F (p.v, p.a, p.ext)) (particles w2) := by
    intro F
    rw [← tot_map F (fun p : Ptcl K => (p.v, p.a, p.ext)), tot_perm F (hmove w2), tot_map]
  have len : (particles w4).length = (particles w).length := by
    have h1 := congrArg List.length hkey
    have h2 := (hmove w2).length_eq
    have h3 := congrArg List.length p2
    simp only [List.length_map] at h1 h2 h3
    rw [h1, hw3, h2, h3]
  have hE : tot (fun p => p.ext) (particles w4) = tot (fun p => p.ext) (particles w2) := by
    have h1 := k4 fun q => q.2.2
    have h2 := k3 fun q => q.2.2
    exact h1.trans h2
  have hU : tot (fun p => vsub p.v (smul (dt / 2) p.a)) (particles w4) = tot (fun p => vadd p.v (smul (dt / 2) p.a)) (particles w) := by
    have h1 := k4 fun q => q.2.1
    have h2 := k3 fun q => vsub q.1 (smul (dt / 2) q.2.1)
    rw [show (fun p : Ptcl K => vsub p.v (smul (dt / 2) p.a)) = fun p => (key dt p).2.1 from rfl, h1]
    refine h2.trans ?_
    rw [p2, tot_map, tot_map]
    apply tot_congr
    intro p _
    apply v3_ext <;> simp only [withExt, predictorGas, vadd, vsub, smul] <;> ring
  obtain ⟨g1, g2⟩ := gasForces_sum sqrt G pm ((particles w).map (predictorGas dt)) s2
  obtain ⟨x1, x2⟩ := extForces_sum sqrt G eps sinks
  obtain ⟨y1, y2⟩ := extForces_sum sqrt G eps (predictorSinks sqrt G eps dt sinks)
  rw [← hs2] at y1 y2
  rw [← p2] at g1 g2
  refine ⟨w4, _, rfl, ⟨?_, ?_, ?_, ?_⟩, ?_, ?_, ?_⟩
  · rw [hs2]
    simp only [extForces, predictorSinks, List.length_map]
    exact H.count
  · intro s hs
    simp only [hs2, extForces, predictorSinks, List.map_map, List.mem_map, Function.comp] at hs
    obtain ⟨t, ht, rfl⟩ := hs
    exact H.mass t ht
  · intro s hs
    simp only [hs2, extForces, predictorSinks, List.map_map, List.mem_map, Function.comp] at hs
    obtain ⟨t, ht, rfl⟩ := hs
    exact H.racc t ht
  · unfold totalForce
    rw [tot_smul pm (fun p : Ptcl K => p.a), hacc, hE, ← tot_smul, tot_map]
    exact g1
  · unfold totalMass
    rw [len, hs2]
    simp only [extForces, predictorSinks, List.map_map, Function.comp_def, kickSink, withAcc]
  · have b := H.balance
    unfold totalForce at b
    rw [tot_smul] at b g1
    rw [tot_map] at g1
    unfold momentum
    rw [tot_smul, tot_smul]
    -- the velocities of the gas
    have hv : tot (fun p => p.v) (particles w4) = vadd (tot (fun p => vsub p.v (smul (dt / 2) p.a)) (particles w4)) (smul (dt / 2) (tot (fun p => p.a) (particles w4))) := by
      rw [← tot_smul, ← tot_vadd]
      apply tot_congr
      intro p _
      apply v3_ext <;> simp only [vadd, vsub, smul] <;> ring
    rw [hv, hU, hacc, hE, tot_vadd, tot_smul]
    -- the sinks
    have hq : tot (fun s => smul s.mass s.vel) ((s2.map (withAcc sqrt G pm ((particles w).map (predictorGas dt)))).map (kickSink dt)) =
        vadd (tot (fun s => smul s.mass s.vel) s2) (smul (dt / 2) (vadd (tot (fun s => smul s.mass (withAcc sqrt G pm ((particles w).map (predictorGas dt)) s).accSph) s2) (tot (fun s => smul s.mass s.accExt) s2))) := by
      rw [tot_map, tot_map, ← tot_vadd, ← tot_smul, ← tot_vadd]
      apply tot_congr
      intro s _
      apply v3_ext <;> simp only [vadd, smul, kickSink, withAcc] <;> ring
    have hq2 : tot (fun s => smul s.mass s.vel) s2 = vadd (tot (fun s => smul s.mass s.vel) sinks) (smul (dt / 2) (vadd (tot (fun s => smul s.mass s.accSph) sinks) (tot (fun s => smul s.mass s.accExt) (extForces sqrt G eps sinks)))) := by
      rw [hs2]
      simp only [extForces, predictorSinks, tot_map]
      rw [← tot_vadd, ← tot_smul, ← tot_vadd]
      apply tot_congr
      intro s _
      apply v3_ext <;> simp only [vadd, smul, kickSink] <;> ring
    rw [hq, hq2, x1, y1]
    have g1' : vadd (smul pm (tot (fun p => p.ext) (particles w2))) (tot (fun s => smul s.mass (withAcc sqrt G pm ((particles w).map (predictorGas dt)) s).accSph) s2) = ⟨0, 0, 0⟩ := g1
    generalize tot (fun s => smul s.mass (withAcc sqrt G pm ((particles w).map (predictorGas dt)) s).accSph) s2 = Y at g1' ⊢
    generalize tot (fun p : Ptcl K => p.ext) (particles w2) = E at g1' ⊢
    generalize tot (fun s : Sink K => smul s.mass s.accSph) sinks = X at b ⊢
    generalize tot (fun p : Ptcl K => p.a) (particles w) = A at b ⊢
    have b1 := congrArg V3.x b
    have b2 := congrArg V3.y b
    have b3 := congrArg V3.z b
    have c1 := congrArg V3.x g1'
    have c2 := congrArg V3.y g1'
    have c3 := congrArg V3.z g1'
    simp only [vadd, smul] at b1 b2 b3 c1 c2 c3
    apply v3_ext <;> simp only [vadd, smul]
    · linear_combination (dt / 2) * (b1 + c1)
    · linear_combination (dt / 2) * (b2 + c2)
    · linear_combination (dt / 2) * (b3 + c3)
  · intro hfix htf
    have f3 : ∀ F : Ptcl K → V3 K, tot F (particles w3) = tot F (particles w2) := fun F => tot_perm F (hfix w2)
    have ht4 := htorq htf
    have hE4 : tot (fun p => cross p.x p.ext) (particles w4) = tot (fun p => cross p.x p.ext) (particles w2) := by
      have h1 := k4 fun q => cross q.1 q.2.2
      exact h1.trans (f3 _)
    have hU4 : tot (fun p => cross p.x (vsub p.v (smul (dt / 2) p.a))) (particles w4) = tot (fun p => cross p.x (vadd p.v (smul (dt / 2) p.a))) (particles w) := by
      have h1 := k4 fun q => cross q.1 q.2.1
      rw [show (fun p : Ptcl K => cross p.x (vsub p.v (smul (dt / 2) p.a))) = fun p => cross (key dt p).1 (key dt p).2.1 from rfl, h1]
      refine (f3 _).trans ?_
      rw [p2, tot_map, tot_map]
      apply tot_congr
      intro p _
      apply v3_ext <;> simp only [key, withExt, predictorGas, vadd, vsub, smul, cross] <;> ring
    constructor
    · unfold totalTorque
      rw [tot_smul pm (fun p : Ptcl K => cross p.x p.a), ht4, hE4, ← tot_smul, tot_map]
      exact g2
    · rw [tot_smul] at g2
      rw [tot_map] at g2
      unfold angularMomentum totalTorque
      rw [tot_smul, tot_smul, tot_smul]
      have hv : tot (fun p => cross p.x p.v) (particles w4) = vadd (tot (fun p => cross p.x (vsub p.v (smul (dt / 2) p.a))) (particles w4)) (smul (dt / 2) (tot (fun p => cross p.x p.a) (particles w4))) := by
        rw [← tot_smul, ← tot_vadd]
        apply tot_congr
        intro p _
        apply v3_ext <;> simp only [vadd, vsub, smul, cross] <;> ring
      have hv0 : tot (fun p => cross p.x (vadd p.v (smul (dt / 2) p.a))) (particles w) = vadd (tot (fun p => cross p.x p.v) (particles w)) (smul (dt / 2) (tot (fun p => cross p.x p.a) (particles w))) := by
        rw [← tot_smul, ← tot_vadd]
        apply tot_congr
        intro p _
        apply v3_ext <;> simp only [vadd, smul, cross] <;> ring
      rw [hv, hU4, ht4, hE4, hv0]
      have hq : tot (fun s => vadd s.ang (smul s.mass (cross s.pos s.vel))) ((s2.map (withAcc sqrt G pm ((particles w).map (predictorGas dt)))).map (kickSink dt)) =
          vadd (tot (fun s => vadd s.ang (smul s.mass (cross s.pos s.vel))) s2) (smul (dt / 2) (vadd
            (tot (fun s => smul s.mass (cross s.pos (withAcc sqrt G pm ((particles w).map (predictorGas dt)) s).accSph)) s2) (tot (fun s => smul s.mass (cross s.pos s.accExt)) s2))) := by
        rw [tot_map, tot_map, ← tot_vadd, ← tot_smul, ← tot_vadd]
        apply tot_congr
        intro s _
        apply v3_ext <;> simp only [vadd, smul, kickSink, withAcc, cross] <;> ring
      have hq2 : tot (fun s => vadd s.ang (smul s.mass (cross s.pos s.vel))) s2 = vadd (tot (fun s => vadd s.ang (smul s.mass (cross s.pos s.vel))) sinks)
          (smul (dt / 2) (vadd (tot (fun s => smul s.mass (cross s.pos s.accSph)) sinks) (tot (fun s => smul s.mass (cross s.pos s.accExt)) (extForces sqrt G eps sinks)))) := by
        rw [hs2]
        simp only [extForces, predictorSinks, tot_map]
        rw [← tot_vadd, ← tot_smul, ← tot_vadd]
        apply tot_congr
        intro s _
        apply v3_ext <;> simp only [vadd, smul, kickSink, cross] <;> ring
      rw [hq, hq2, x2, y2]
      have g2' : vadd (smul pm (tot (fun p => cross p.x p.ext) (particles w2))) (tot (fun s => smul s.mass (cross s.pos (withAcc sqrt G pm ((particles w).map (predictorGas dt)) s).accSph)) s2) = ⟨0, 0, 0⟩ := g2
      generalize tot (fun s => smul s.mass (cross s.pos (withAcc sqrt G pm ((particles w).map (predictorGas dt)) s).accSph)) s2 = Y at g2' ⊢
      generalize tot (fun p : Ptcl K => cross p.x p.ext) (particles w2) = E at g2' ⊢
      have c1 := congrArg V3.x g2'
      have c2 := congrArg V3.y g2'
      have c3 := congrArg V3.z g2'
      simp only [vadd, smul] at c1 c2 c3
      apply v3_ext <;> simp only [vadd, smul]
      · linear_combination (dt / 2) * c1
      · linear_combination (dt / 2) * c2
      · linear_combination (dt / 2) * c3

end
end Shamrock.Sph
