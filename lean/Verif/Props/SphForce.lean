import Verif.Proof.SphSum
import Verif.Proof.SphFieldLayer
import Mathlib.Tactic.LinearCombination
/-! C62: the SPH derivatives conserve momentum, energy and angular momentum, over all patches and ghosts. -/
namespace Shamrock.Sph

section
variable {K : Type} [Field K] [LinearOrder K] [IsStrictOrderedRing K]

theorem turn_pair (C : Cfg K) (a b : Part K) (w : V3 K × K) (h : C.turn a b (⟨0, 0, 0⟩, 0) = some w) : w = C.pair a b := by
  unfold Cfg.turn at h
  unfold Cfg.pair
  split at h
  · rename_i hf
    rw [if_pos hf]
    exact (Option.some.inj h).symm
  · rename_i hf
    rw [if_neg hf]
    split at h
    · cases h
    · rw [Option.some.injEq] at h
      rw [← h]
      dsimp only
      rw [v3_zero_add, zero_add]

/-- **C62, pair of particles.** For all states, kernels, square roots and viscosities: what a particle `a` gets from `b` and `b` from `a` in the loop over neighbours are
opposite accelerations, along the line of the centres, and the internal energies gain what the forces take from the kinetic energy. -/
theorem C62_pair (C : Cfg K) (a b : Part K) (w w' : V3 K × K) (h : C.turn a b (⟨0, 0, 0⟩, 0) = some w) (h' : C.turn b a (⟨0, 0, 0⟩, 0) = some w') :
    w'.1 = vneg w.1 ∧ cross (vsub a.x b.x) w.1 = ⟨0, 0, 0⟩ ∧ w.2 + w'.2 + dot a.v w.1 + dot b.v w'.1 = 0 := by
  have e := turn_pair C a b w h
  have e' := turn_pair C b a w' h'
  have M : Mirror a b a b := by
    refine ⟨⟨rfl, rfl, rfl, rfl, rfl, rfl⟩, ⟨rfl, rfl, rfl, rfl, rfl, rfl⟩, ?_, ?_⟩ <;> apply v3_ext <;> simp [vsub, vneg]
  have hf := far_mirror C M
  unfold Cfg.pair at e e'
  rw [hf] at e'
  by_cases hc : C.far a b = true
  · rw [if_pos hc] at e e'
    subst e e'
    refine ⟨?_, ?_, ?_⟩
    · apply v3_ext <;> simp [vneg]
    · apply v3_ext <;> simp [cross]
    · simp [dot]
  · rw [if_neg hc] at e e'
    have f1 := near_force C M
    have f2 := near_energy C M
    have f3 := near_central C a b
    rw [← e, ← e'] at f1 f2
    rw [← e] at f3
    refine ⟨f1, f3, ?_⟩
    rw [f1, ← f2]
    unfold dot vsub vneg
    ring

/-- Specification: the sum of the accelerations, each particle having the same mass. -/
def sumAcc (ss : List Nat) (gasOf : Nat → List (Gas K)) (out : Nat → List (V3 K × K)) : V3 K :=
  ⟨sumAll ss gasOf out fun _ d => d.1.x, sumAll ss gasOf out fun _ d => d.1.y, sumAll ss gasOf out fun _ d => d.1.z⟩

/-- Specification: rate of change of kinetic plus internal energy, per unit of mass of a particle. -/
def sumPower (ss : List Nat) (gasOf : Nat → List (Gas K)) (out : Nat → List (V3 K × K)) : K := sumAll ss gasOf out fun g d => dot g.v d.1 + d.2

/-- Specification: the sum of the torques. -/
def sumTorque (ss : List Nat) (gasOf : Nat → List (Gas K)) (out : Nat → List (V3 K × K)) : V3 K :=
  ⟨sumAll ss gasOf out fun g d => (cross g.x d.1).x, sumAll ss gasOf out fun g d => (cross g.x d.1).y, sumAll ss gasOf out fun g d => (cross g.x d.1).z⟩

variable {C : Cfg K} {rho : Nat → K} {pbox : Nat → Box K} {gasOf : Nat → List (Gas K)} {offs : List (V3 Int)} {D V : V3 Int → V3 K} {ss : List Nat}

/-- **C62, conservation.** For all patches, particles, radii, boundaries (periodic, shearing, free: `C62_periodic`, `C62_shearing`, `C62_free`), equations of state, kernels,
viscosities, and any caches that meet C54: on the merged particles (C56, `C62_fields`) the kernel completes on every patch, and the accelerations of all particles
of all patches sum to zero; when the images do not move the total energy is constant; when they are not displaced either the total torque is zero. -/
theorem C62_conservation (H : SphOk C rho pbox gasOf offs D V ss) (eos : K → K → K × K) (htol : K) (Hh : Nat → Nat → K) (cache : Nat → ObjCache)
    (Ca : CachesOk C htol (mergedGas rho pbox gasOf V (offs.map fun k => (k, D k)) ss) gasOf Hh cache ss) :
    ∃ out : Nat → List (V3 K × K), (∀ R ∈ ss, C.derivs (gasBufs eos (mergedGas rho pbox gasOf V (offs.map fun k => (k, D k)) ss R)) (cache R) (gasOf R).length = some (out R) ∧
        (out R).length = (gasOf R).length) ∧
      sumAcc ss gasOf out = ⟨0, 0, 0⟩ ∧
      ((∀ k, V k = ⟨0, 0, 0⟩) → sumPower ss gasOf out = 0) ∧
      ((∀ k, D k = ⟨0, 0, 0⟩) → sumTorque ss gasOf out = ⟨0, 0, 0⟩) := by
  obtain ⟨out, h1, h2⟩ := derivs_run H eos htol Hh cache Ca
  have hF : ∀ a b k, (C.near (partOf eos C.visc b) (partOf eos C.visc (a.moved (D (ineg k)) (V (ineg k))))).1 =
      vneg (C.near (partOf eos C.visc a) (partOf eos C.visc (b.moved (D k) (V k)))).1 := fun a b k => near_force C (mirror H eos a b k)
  refine ⟨out, h1, ?_, fun hV => ?_, fun hD => ?_⟩
  · apply v3_ext
    · exact h2 (fun _ d => d.1.x) (fun _ => ⟨rfl, fun _ _ => rfl⟩) fun R _ S _ a _ b _ k => by rw [hF]; simp [vneg]
    · exact h2 (fun _ d => d.1.y) (fun _ => ⟨rfl, fun _ _ => rfl⟩) fun R _ S _ a _ b _ k => by rw [hF]; simp [vneg]
    · exact h2 (fun _ d => d.1.z) (fun _ => ⟨rfl, fun _ _ => rfl⟩) fun R _ S _ a _ b _ k => by rw [hF]; simp [vneg]
  · refine h2 (fun g d => dot g.v d.1 + d.2) (fun g => ⟨by simp [dot], fun a b => by unfold dot vadd; ring⟩) fun R _ S _ a _ b _ k => ?_
    have h3 := near_energy C (mirror H eos a b k)
    rw [hF]
    have e : (partOf eos C.visc (b.moved (D k) (V k))).v = b.v := by
      show b.v.addv (V k) = b.v
      rw [hV, V3.addv_zero]
    rw [e] at h3
    have e2 : (partOf eos C.visc a).v = a.v := rfl
    rw [e2] at h3
    generalize (C.near (partOf eos C.visc a) (partOf eos C.visc (b.moved (D k) (V k)))) = w at h3 ⊢
    unfold dot vsub at h3
    unfold dot vneg
    linear_combination h3
  · have hT : ∀ (a b : Gas K) (k : V3 Int), cross (vsub a.x b.x) (C.near (partOf eos C.visc a) (partOf eos C.visc (b.moved (D k) (V k)))).1 = ⟨0, 0, 0⟩ := by
      intro a b k
      have h3 := near_central C (partOf eos C.visc a) (partOf eos C.visc (b.moved (D k) (V k)))
      have e : (partOf eos C.visc (b.moved (D k) (V k))).x = b.x := by
        show b.x.addv (D k) = b.x
        rw [hD, V3.addv_zero]
      rw [e] at h3
      exact h3
    apply v3_ext
    · refine h2 (fun g d => (cross g.x d.1).x) (fun g => ⟨by simp [cross], fun a b => by unfold cross vadd; ring⟩) fun R _ S _ a _ b _ k => ?_
      have := congrArg V3.x (hT a b k)
      rw [hF]
      unfold cross vsub at this
      unfold cross vneg
      dsimp only at this ⊢
      linear_combination this
    · refine h2 (fun g d => (cross g.x d.1).y) (fun g => ⟨by simp [cross], fun a b => by unfold cross vadd; ring⟩) fun R _ S _ a _ b _ k => ?_
      have := congrArg V3.y (hT a b k)
      rw [hF]
      unfold cross vsub at this
      unfold cross vneg
      dsimp only at this ⊢
      linear_combination this
    · refine h2 (fun g d => (cross g.x d.1).z) (fun g => ⟨by simp [cross], fun a b => by unfold cross vadd; ring⟩) fun R _ S _ a _ b _ k => ?_
      have := congrArg V3.z (hT a b k)
      rw [hF]
      unfold cross vsub at this
      unfold cross vneg
      dsimp only at this ⊢
      linear_combination this

/-! ### Boundaries -/

/-- Specification: the particles and their radii: positive smoothing lengths, `omega` not zero, the interaction radius of every patch is at least the kernel radius of its
particles and the kernel radius of each particle with an image that reaches one of its particles. -/
structure GasOk (C : Cfg K) (rho : Nat → K) (gasOf : Nat → List (Gas K)) (D : V3 Int → V3 K) (ss : List Nat) : Prop where
  rkern : 0 ≤ C.rkern
  mass : 0 < C.pmass ∧ 0 < C.hfact
  gas : ∀ S ∈ ss, ∀ g ∈ gasOf S, 0 < g.h ∧ g.omega ≠ 0
  own : ∀ R ∈ ss, ∀ a ∈ gasOf R, C.rkern * a.h ≤ rho R
  seen : ∀ R ∈ ss, ∀ S ∈ ss, ∀ a ∈ gasOf R, ∀ b ∈ gasOf S, ∀ k, dot (vsub a.x (b.x.addv (D k))) (vsub a.x (b.x.addv (D k))) ≤ (C.rkern * b.h) ^ 2 → C.rkern * b.h ≤ rho R

theorem sphOk_of (G : GasOk C rho gasOf D ss) (lo L : V3 K) (d : DomainOk rho pbox (posOf gasOf) ss lo L) (ho : offs.Nodup) (h0 : ⟨0, 0, 0⟩ ∈ offs)
    (hD : ∀ k, D (ineg k) = vneg (D k)) (hV : ∀ k, V (ineg k) = vneg (V k))
    (hc : ∀ k, |(D k).x| < 2 * L.x → |(D k).y| < 2 * L.y → |(D k).z| < 2 * L.z → k ∈ offs) : SphOk C rho pbox gasOf offs D V ss := by
  have hm : (offs.map fun k => (k, D k)).map (fun sh : Shift K => sh.1) = offs := by
    rw [List.map_map]
    exact List.map_id _
  refine ⟨⟨d.inside, fun S hS => (d.radius S hS).1, d.ids, by rw [hm]; exact ho, List.mem_map.2 ⟨_, h0, by rw [odd_zero D hD]⟩⟩, ?_, hD, hV, G.rkern, G.mass, G.gas,
    G.own, G.seen⟩
  intro R hR S hS g hg k _ hin
  obtain ⟨⟨x1, x2⟩, ⟨y1, y2⟩, z1, z2⟩ := d.inside S hS (g.x, g.h) (List.mem_map.2 ⟨g, hg, rfl⟩)
  obtain ⟨⟨a1, a2⟩, ⟨a3, a4⟩, a5, a6⟩ := d.boxes S hS
  obtain ⟨⟨b1, b2⟩, ⟨b3, b4⟩, b5, b6⟩ := d.boxes R hR
  obtain ⟨-, r1, r2, r3⟩ := d.radius R hR
  obtain ⟨⟨c1, c2⟩, ⟨c3, c4⟩, c5, c6⟩ := hin
  simp only [V3.subs, V3.adds, V3.addv] at c1 c2 c3 c4 c5 c6
  refine hc k ?_ ?_ ?_ <;> rw [abs_lt] <;> constructor <;> linarith

/-- **C62, periodic box**: the hypotheses of `C62_conservation` hold for the shifts of the periodic boundary. -/
theorem C62_periodic (lo L : V3 K) (G : GasOk C rho gasOf (fun k => ⟨(k.x : K) * L.x, (k.y : K) * L.y, (k.z : K) * L.z⟩) ss) (d : DomainOk rho pbox (posOf gasOf) ss lo L) (hL : 0 < L.x ∧ 0 < L.y ∧ 0 < L.z) :
    SphOk C rho pbox gasOf (offsets3 1 1 1) (fun k => ⟨(k.x : K) * L.x, (k.y : K) * L.y, (k.z : K) * L.z⟩) (fun _ => ⟨0, 0, 0⟩) ss ∧
    periodicShifts L = (offsets3 1 1 1).map fun k => (k, (⟨(k.x : K) * L.x, (k.y : K) * L.y, (k.z : K) * L.z⟩ : V3 K)) := by
  refine ⟨sphOk_of G lo L d (offsets3_nodup _ _ _) ?_ ?_ ?_ ?_, rfl⟩
  · rw [mem_offsets3 _ _ _ (by omega) (by omega) (by omega)]; simp
  · intro k; apply v3_ext <;> simp [ineg, vneg]
  · intro k; apply v3_ext <;> simp [vneg]
  · intro k hx hy hz
    rw [mem_offsets3 _ _ _ (by omega) (by omega) (by omega)]
    dsimp only at hx hy hz
    exact ⟨shear_plain _ _ hL.1 (by rw [mul_comm]; exact hx), shear_plain _ _ hL.2.1 (by rw [mul_comm]; exact hy), shear_plain _ _ hL.2.2 (by rw [mul_comm]; exact hz)⟩

/-- **C62, shearing box**: likewise; the speed of an image is the rate at which its displacement grows when the shear grows at `speed`. -/
theorem C62_shearing (lo L : V3 K) (c : ShearCfg K) (G : GasOk C rho gasOf (shearShift c L) ss) (d : DomainOk rho pbox (posOf gasOf) ss lo L) (hL : 0 < L.x ∧ 0 < L.y ∧ 0 < L.z)
    (trunc : K → Int) (htr : ∀ x, |x - (trunc x : K)| < 1) (hb : IsAxis c.base) (hd : IsAxis c.dir) (hne : c.base ≠ c.dir) (speed : K) :
    SphOk C rho pbox gasOf (shearOffsets trunc c L) (shearShift c L) (shearSpeed c speed) ss ∧
    (shearShifts trunc c L = (shearOffsets trunc c L).map fun k => (k, shearShift c L k)) ∧
    ∀ (t : K) (k : V3 Int), shearShift { c with value := c.value + speed * t } L k = vadd (shearShift c L k) (smul t (shearSpeed c speed k)) := by
  obtain ⟨h1, h2, -, h4⟩ := shear_offs trunc htr c hb hd hne L hL
  refine ⟨sphOk_of G lo L d h1 h2 ?_ ?_ h4, rfl, fun t k => by
    apply v3_ext <;> simp only [shearShift, shearSpeed, ShearCfg.d, vadd, smul] <;> ring⟩
  · intro k
    apply v3_ext <;> simp only [shearShift, ShearCfg.d, ineg, vneg] <;> push_cast <;> ring
  · intro k
    apply v3_ext <;> simp only [shearSpeed, ShearCfg.d, ineg, vneg] <;> push_cast <;> ring

/-- **C62, free boundary** (any domain and radii): likewise. -/
theorem C62_free (G : GasOk C rho gasOf (fun _ => ⟨0, 0, 0⟩) ss) (hin : ∀ S ∈ ss, ∀ p ∈ posOf gasOf S, InHalfOpen (pbox S).lower (pbox S).upper p.1) (hn : ss.Nodup) :
    SphOk C rho pbox gasOf [⟨0, 0, 0⟩] (fun _ => ⟨0, 0, 0⟩) (fun _ => ⟨0, 0, 0⟩) ss ∧ (freeShifts : List (Shift K)) = [(⟨0, 0, 0⟩ : V3 Int)].map fun k => (k, ⟨0, 0, 0⟩) := by
  refine ⟨⟨⟨hin, ?_, hn, by simp, by simp⟩, ?_, ?_, ?_, G.rkern, G.mass, G.gas, G.own, G.seen⟩, rfl⟩
  · intro S hS hne
    obtain ⟨p, hp⟩ := List.exists_mem_of_ne_nil _ hne
    obtain ⟨g, hg, -⟩ := List.mem_map.1 hp
    exact (mul_nonneg G.rkern (G.gas S hS g hg).1.le).trans (G.own S hS g hg)
  · intro R _ S _ g _ k hk _
    rw [List.mem_singleton] at hk ⊢
    rw [← ineg_ineg k, hk]; rfl
  · intro k; apply v3_ext <;> simp [vneg]
  · intro k; apply v3_ext <;> simp [vneg]

/-! ### The fields of the ghosts -/

/-- **C62, fields of the ghosts.** For every history of the patch tree, placement of the patches on ranks, iteration order, schedule of kernels and OpenMP loops, and communication
schedule: the layers of the fields and of the viscosity parameter are built without error on all ranks, and after the two exchanges the fields of each non empty patch are
those of the merged particles `mergedGas`, in the order of the merged positions: each element of each field belongs to the particle of the same number, images have the speed
of their shift added. -/
theorem C62_fields (rk : Nat → Nat) {box : PatchCoord → V3 K × V3 K} {t : PTree} (h : THist PTree.init t) (hN : BoxNest box t) (hL : LeafLinks t)
    (pbox : Nat → Box K) (gasOf : Nat → List (Gas K)) (world : List (List (Nat × PartData K))) (W : GhostWorld rk box t pbox (posOf gasOf) world)
    (rho : Nat → K) (speed : V3 Int → V3 K) (shs : List (Shift K)) (ss : List Nat) (hss : ss.Pairwise (· < ·)) (hsall : ∀ R, R ∈ ss ↔ ∃ d ∈ world, R ∈ d.map (·.1))
    (rs : Nat → List Nat) (hr : ∀ r, Enumerates (rs r) t.roots) (hnd : ∀ r, (rs r).Nodup)
    (scheds : Nat → Nat → List Nat) (omp : Nat → Nat → List (List ((Nat × Nat) × Interf K)) → List ((Nat × Nat) × Interf K))
    (homp : ∀ r i ls, Interleaves ls (omp r i ls)) (loc : Nat → List Nat) (hloc : ∀ (r : Nat) d, world[r]? = some d → (loc r).Perm (d.map (·.1)))
    (garbage : Nat → K) (garbageV : Nat → V3 K) (order : Nat → Nat → Nat → List Nat) (ho : ∀ r i, GoodOrder (order r i))
    (mx dev lim : Nat) (buf : Bool) (hlim : 0 < lim) (hmx : mx < 2 ^ 31) (h8 : 8 ≤ mx) :
    ∃ (g : Nat → List ((Nat × Nat) × FData K)) (ga : Nat → List ((Nat × Nat) × PField K)),
      (∀ (r : Nat) d, world[r]? = some d → ∃ s ids tf m tab N, serBuild box t (rs r) = .ok (s, ids) ∧ treeField s rho (scheds r) = some tf ∧
        (∀ f, findInterfaces s ids tf rho (f + N) (omp r) ((loc r).map fun i => (i, pbox i)) 0 shs [] = some (.ok m)) ∧ genIdTable d m [] = .ok tab ∧
        buildFields garbage garbageV (order r) speed (d.map fun p => (p.1, mkFields (gasOf p.1))) 0 tab = .ok (g r) ∧
        buildAlphas garbage (order r) (d.map fun p => (p.1, ⟨1, (gasOf p.1).map (·.alpha)⟩)) 0 tab = .ok (ga r)) ∧
      (∀ (ser : FData K → List Byte) (deser : List Byte → FData K), (∀ r < world.length, ∀ e ∈ g r, deser (ser e.2) = e.2) →
        FitsComm rk mx dev ser ((List.range world.length).map g) →
        CommDelivers rk mx dev lim buf (((List.range world.length).map g).map fun l => (splitSend rk ser l).2) fun r recv => ∀ d, world[r]? = some d →
          mergeFields (joinRecv deser recv (splitSend rk ser (g r)).1) (d.map fun p => (p.1, mkFields (gasOf p.1))) =
            .ok ((d.filter fun p => decide (gasOf p.1 ≠ [])).map fun p => (p.1, mkFields (mergedGas rho pbox gasOf speed shs ss p.1)))) ∧
      ∀ (ser : PField K → List Byte) (deser : List Byte → PField K), (∀ r < world.length, ∀ e ∈ ga r, deser (ser e.2) = e.2) →
        FitsComm rk mx dev ser ((List.range world.length).map ga) →
        CommDelivers rk mx dev lim buf (((List.range world.length).map ga).map fun l => (splitSend rk ser l).2) fun r recv => ∀ d, world[r]? = some d →
          mergeAlphas (joinRecv deser recv (splitSend rk ser (ga r)).1) (d.map fun p => (p.1, ⟨1, (gasOf p.1).map (·.alpha)⟩)) =
            .ok ((d.filter fun p => decide (gasOf p.1 ≠ [])).map fun p => (p.1, ⟨1, (mergedGas rho pbox gasOf speed shs ss p.1).map (·.alpha)⟩)) := by
  let contentF : Nat → Nat → List (Row K) := fun S R => (shs.flatMap fun sh => (ghostIdx rho (pbox S) (pbox R) S R (posOf gasOf S) sh).map fun i => (S, i, sh)).filterMap
    fun l => (gasImage gasOf speed l).map rowOf
  let contentA : Nat → Nat → List K := fun S R => (shs.flatMap fun sh => (ghostIdx rho (pbox S) (pbox R) S R (posOf gasOf S) sh).map fun i => (S, i, sh)).filterMap
    fun l => (gasImage gasOf (fun _ => (⟨0, 0, 0⟩ : V3 K)) l).map (·.alpha)
  have hrank : ∀ r : Nat, ∃ (g : List ((Nat × Nat) × FData K)) (ga : List ((Nat × Nat) × PField K)), ∀ d, world[r]? = some d →
      (∃ s ids tf m tab N, serBuild box t (rs r) = .ok (s, ids) ∧ treeField s rho (scheds r) = some tf ∧
        (∀ f, findInterfaces s ids tf rho (f + N) (omp r) ((loc r).map fun i => (i, pbox i)) 0 shs [] = some (.ok m)) ∧ genIdTable d m [] = .ok tab ∧
        buildFields garbage garbageV (order r) speed (d.map fun p => (p.1, mkFields (gasOf p.1))) 0 tab = .ok g ∧
        buildAlphas garbage (order r) (d.map fun p => (p.1, ⟨1, (gasOf p.1).map (·.alpha)⟩)) 0 tab = .ok ga) ∧
      ((∀ e ∈ g, (e.1.1 ∈ d.map (·.1) ∧ e.1.2 ∈ ss) ∧ ∃ rws, e.2 = mkRows rws) ∧
        ∀ S ∈ d.map (·.1), ∀ R ∈ ss, (g.filter fun e => decide (e.1 = (S, R))).flatMap (fun e => rowsOf e.2) = contentF S R) ∧
      ((∀ e ∈ ga, e.1.1 ∈ d.map (·.1) ∧ e.1.2 ∈ ss) ∧
        ∀ S ∈ d.map (·.1), ∀ R ∈ ss, (ga.filter fun e => decide (e.1 = (S, R))).flatMap (fun e => e.2.buf) = contentA S R) := by
    intro r
    cases hw : world[r]? with
    | none => exact ⟨[], [], fun d h => by cases h⟩
    | some d =>
      obtain ⟨s, ids, tf, m, tab, N, q1, q2, q3, q4, -, q6, q7⟩ := rank_tab MonoOps.exact h hN hL rk pbox (posOf gasOf) world W rho shs ss hsall (rs r) (hr r) (hnd r) (scheds r) (omp r)
        (homp r) r d hw (loc r) (hloc r d hw)
      have hlen : ∀ S, (posOf gasOf S).length = (gasOf S).length := fun S => by unfold posOf; rw [List.length_map]
      have hE : ∀ e ∈ tab, EntOk gasOf e := by
        intro e he
        obtain ⟨-, -, a1, a2, a3, a4⟩ := q6 e he
        rw [hlen] at a2 a3 a4
        exact ⟨a1, a2, a3, a4⟩
      have hdm := List.mem_of_getElem? hw
      have hfind : ∀ {β : Type} (f : Nat → β) (S : Nat), S ∈ d.map (·.1) → mfind (d.map fun p => (p.1, f p.1)) S = some (f S) := by
        intro β f S hS
        obtain ⟨kv, k1, rfl⟩ := List.mem_map.1 hS
        refine (mfind_some ?_).2 (List.mem_map.2 ⟨kv, k1, rfl⟩)
        have := W.maps d hdm
        unfold MapOk at this ⊢
        rw [List.pairwise_map]
        exact this
      have bF := buildFields_ok garbage garbageV (order r) (ho r) speed (d.map fun p => (p.1, mkFields (gasOf p.1))) gasOf tab 0
        fun e he => ⟨hE e he, hfind (fun S => mkFields (gasOf S)) _ (q6 e he).1⟩
      have bA := buildAlphas_ok garbage (order r) (ho r) (d.map fun p => (p.1, ⟨1, (gasOf p.1).map (·.alpha)⟩)) gasOf tab 0
        fun e he => ⟨hE e he, hfind (fun S => (⟨1, (gasOf S).map (·.alpha)⟩ : PField K)) _ (q6 e he).1⟩
      refine ⟨tab.map fun e => (e.1, mkRows (entRows gasOf speed e)), tab.map fun e => (e.1, ⟨1, entAlphas gasOf e⟩), fun d' hd' => ?_⟩
      cases hd'
      refine ⟨⟨s, ids, tf, m, tab, N, q1, q2, q3, q4, bF, bA⟩, ⟨fun e he => ?_, fun S hS R hR => ?_⟩, fun e he => ?_, fun S hS R hR => ?_⟩
      · obtain ⟨e', he', rfl⟩ := List.mem_map.1 he
        exact ⟨⟨(q6 e' he').1, (q6 e' he').2.1⟩, _, rfl⟩
      · show _ = (shs.flatMap fun sh => (ghostIdx rho (pbox S) (pbox R) S R (posOf gasOf S) sh).map fun i => (S, i, sh)).filterMap _
        rw [← q7 S hS R hR, List.filter_map, List.flatMap_map, List.filterMap_flatMap]
        refine List.flatMap_congr fun e he => ?_
        have hk : e.1 = (S, R) := by simpa using (List.mem_filter.1 he).2
        rw [rowsOf_mkRows, List.filterMap_map]
        unfold entRows
        rw [hk]
        rfl
      · obtain ⟨e', he', rfl⟩ := List.mem_map.1 he
        exact ⟨(q6 e' he').1, (q6 e' he').2.1⟩
      · show _ = (shs.flatMap fun sh => (ghostIdx rho (pbox S) (pbox R) S R (posOf gasOf S) sh).map fun i => (S, i, sh)).filterMap _
        rw [← q7 S hS R hR, List.filter_map, List.flatMap_map, List.filterMap_flatMap]
        refine List.flatMap_congr fun e he => ?_
        have hk : e.1 = (S, R) := by simpa using (List.mem_filter.1 he).2
        rw [List.filterMap_map]
        unfold entAlphas
        rw [hk]
        rfl
  choose g ga hg using hrank
  have hown : ∀ (r : Nat) d, world[r]? = some d → ∀ p ∈ d, p.1 ≠ u64max ∧ (gasOf p.1).length < 2 ^ 32 := by
    intro r d hd p hp
    have hdm := List.mem_of_getElem? hd
    have := W.ids d hdm p hp
    have h2 := (W.data d hdm p hp).2
    unfold posOf at h2
    rw [List.length_map] at h2
    exact ⟨by omega, h2⟩
  have hfl : ∀ {β : Type} (d : List (Nat × PartData K)) (f : Nat → β), ((d.map fun p => (p.1, f p.1)).filter fun p => decide (gasOf p.1 ≠ [])) =
      (d.filter fun p => decide (gasOf p.1 ≠ [])).map fun p => (p.1, f p.1) := by
    intro β d f
    rw [List.filter_map]
    rfl
  refine ⟨g, ga, fun r d hd => (hg r d hd).1, fun ser deser hinv hfit => ?_, fun ser deser hinv hfit => ?_⟩
  · refine CommDelivers.mono (exchange_rows rowsOf rk pbox (posOf gasOf) world W ss hss hsall contentF g
      (fun r d hd => ⟨fun e he => ((hg r d hd).2.1.1 e he).1, (hg r d hd).2.1.2⟩) mx dev lim buf hlim hmx h8 ser deser hinv hfit) fun r _ recv hP d hd => ?_
    obtain ⟨p1, p2⟩ := hP d hd
    generalize joinRecv deser recv (splitSend rk ser (g r)).1 = rc at p1 p2 ⊢
    rw [mergeFields_ok rc (fun e he => by
      obtain ⟨r', hr', he'⟩ := p1 e he
      have hw' : world[r']? = some (world[r']?.getD []) := by rw [List.getElem?_eq_getElem hr']; rfl
      exact ((hg r' _ hw').2.1.1 e he').2) gasOf (d.map fun p => (p.1, mkFields (gasOf p.1))) (fun p hp => by
        obtain ⟨q, hq, rfl⟩ := List.mem_map.1 hp
        exact ⟨rfl, hown r d hd q hq⟩), hfl d fun S => mkFields (gasOf S), List.map_map]
    congr 1
    refine List.map_congr_left fun p hp => ?_
    have hp' := List.mem_of_mem_filter hp
    simp only [Function.comp_apply]
    rw [p2 p.1 (List.mem_map.2 ⟨p, hp', rfl⟩), mkFields_rows]
    unfold mergedGas
    rw [List.map_append]
    congr 3
    rw [List.map_flatMap]
    refine List.flatMap_congr fun S _ => ?_
    show (shs.flatMap _).filterMap _ = _
    rw [List.map_flatMap, List.filterMap_flatMap]
    refine List.flatMap_congr fun sh _ => ?_
    rw [List.filterMap_map, List.map_filterMap]
    rfl
  · refine CommDelivers.mono (exchange_rows (fun f : PField K => f.buf) rk pbox (posOf gasOf) world W ss hss hsall contentA ga
      (fun r d hd => (hg r d hd).2.2) mx dev lim buf hlim hmx h8 ser deser hinv hfit) fun r _ recv hP d hd => ?_
    obtain ⟨-, p2⟩ := hP d hd
    generalize joinRecv deser recv (splitSend rk ser (ga r)).1 = rc at p2 ⊢
    rw [mergeAlphas_ok rc gasOf (d.map fun p => (p.1, ⟨1, (gasOf p.1).map (·.alpha)⟩)) (fun p hp => by
        obtain ⟨q, hq, rfl⟩ := List.mem_map.1 hp
        exact ⟨rfl, hown r d hd q hq⟩), hfl d fun S => (⟨1, (gasOf S).map (·.alpha)⟩ : PField K), List.map_map]
    congr 1
    refine List.map_congr_left fun p hp => ?_
    have hp' := List.mem_of_mem_filter hp
    simp only [Function.comp_apply]
    rw [p2 p.1 (List.mem_map.2 ⟨p, hp', rfl⟩)]
    unfold mergedGas
    rw [List.map_append]
    congr 3
    rw [List.map_flatMap]
    refine List.flatMap_congr fun S _ => ?_
    show (shs.flatMap _).filterMap _ = _
    rw [List.map_flatMap, List.filterMap_flatMap]
    refine List.flatMap_congr fun sh _ => ?_
    rw [List.filterMap_map, List.map_filterMap]
    refine List.filterMap_congr fun i _ => ?_
    simp only [Function.comp_apply, gasImage, Option.map_map]
    rfl

/-! ### Dissipation -/

/-- Specification: the same constants without viscosity. -/
def inviscid (C : Cfg K) : Cfg K := { C with visc := .const 0, betaAV := 0 }

/-- Specification: the same constants without conductivity. -/
def adiabatic (C : Cfg K) : Cfg K := { C with alphaU := 0 }

theorem q_sign (C : Cfg K) (a : Part K) (rho rab vr : K) (hb : 0 ≤ C.betaAV) (ha : 0 ≤ C.visc.alphaOf a) (hcs : 0 ≤ a.cs) (hh : 0 ≤ a.h) (hr : 0 ≤ rho) : C.q a rho rab vr * vr ≤ 0 := by
  have hvs : 0 ≤ C.visc.alphaOf a * a.cs + C.betaAV * |vr| := add_nonneg (mul_nonneg ha hcs) (mul_nonneg hb (abs_nonneg _))
  have std : qAv rho (C.visc.alphaOf a * a.cs + C.betaAV * |vr|) vr * vr ≤ 0 := by
    unfold qAv
    rcases le_total 0 vr with h | h
    · have : -(1 / 2) * rho * (C.visc.alphaOf a * a.cs + C.betaAV * |vr|) * vr ≤ 0 := by
        have := mul_nonneg (mul_nonneg hr hvs) h
        linarith
      rw [max_eq_right this, zero_mul]
    · exact mul_nonpos_of_nonneg_of_nonpos (le_max_right _ _) h
  unfold Cfg.q
  rcases hv : C.visc with _ | al | al
  · rw [hv] at std; exact std
  · rw [hv] at std; exact std
  · rw [hv] at hvs ha
    dsimp only
    unfold qAvDisc
    dsimp only
    have hp : 0 ≤ rho * |invSatPositive rab| * a.h := mul_nonneg (mul_nonneg hr (abs_nonneg _)) hh
    have hvd : 0 ≤ (if vr < 0 then (Visc.disc al).alphaOf a * a.cs + C.betaAV * |vr| else al * a.cs) := by
      split
      · exact hvs
      · exact mul_nonneg ha hcs
    generalize (if vr < 0 then (Visc.disc al).alphaOf a * a.cs + C.betaAV * |vr| else al * a.cs) = vd at hvd ⊢
    have := mul_nonneg (mul_nonneg hp hvd) (mul_self_nonneg vr)
    linarith [show -(1 / 2) * rho * |invSatPositive rab| * a.h * vd * vr * vr = -(1 / 2) * (rho * |invSatPositive rab| * a.h * vd * (vr * vr)) by ring]

/-- **C62, dissipation.** For a kernel that decreases with the distance, positive densities, viscosity parameters and sound speed not negative: the viscosity heats
(a particle gains from each neighbour at least as much internal energy as without viscosity), whatever the formula; and the conduction goes from the hot particle to the cold one, what
one loses the other one gains. -/
theorem C62_dissipation (C : Cfg K) (a b : Part K) (hm : 0 < C.pmass ∧ 0 < C.hfact) (hb : 0 ≤ C.betaAV) (hal : 0 ≤ C.visc.alphaOf a) (hcs : 0 ≤ a.cs) (hah : 0 < a.h ∧ 0 < a.omega)
    (hbh : 0 < b.h ∧ 0 < b.omega) (hW : ∀ r h, C.dW r h ≤ 0) (hs : ∀ x, 0 ≤ C.sqrt x) (hau : 0 ≤ C.alphaU) (w w0 wc w' wc' : V3 K × K)
    (h : C.turn a b (⟨0, 0, 0⟩, 0) = some w) (h0 : (inviscid C).turn a b (⟨0, 0, 0⟩, 0) = some w0) (hc : (adiabatic C).turn a b (⟨0, 0, 0⟩, 0) = some wc)
    (h' : C.turn b a (⟨0, 0, 0⟩, 0) = some w') (hc' : (adiabatic C).turn b a (⟨0, 0, 0⟩, 0) = some wc') :
    w0.2 ≤ w.2 ∧ (b.u ≤ a.u → w.2 ≤ wc.2) ∧ (a.u ≤ b.u → wc.2 ≤ w.2) ∧ (w.2 - wc.2) + (w'.2 - wc'.2) = 0 := by
  have hrho : ∀ h : K, 0 < h → 0 < rhoH C.pmass h C.hfact := by
    intro h hh
    have := div_pos hm.2 hh
    exact mul_pos (mul_pos (mul_pos hm.1 this) this) this
  have e1 := turn_pair C a b w h
  have e2 := turn_pair _ a b w0 h0
  have e3 := turn_pair _ a b wc hc
  have e4 := turn_pair _ b a w' h'
  have e5 := turn_pair _ b a wc' hc'
  have f2 : (inviscid C).far a b = C.far a b := rfl
  have f3 : (adiabatic C).far a b = C.far a b := rfl
  have f5 : (adiabatic C).far b a = C.far b a := rfl
  have M : Mirror a b a b := by
    refine ⟨⟨rfl, rfl, rfl, rfl, rfl, rfl⟩, ⟨rfl, rfl, rfl, rfl, rfl, rfl⟩, ?_, ?_⟩ <;> apply v3_ext <;> simp [vsub, vneg]
  have hf := far_mirror C M
  unfold Cfg.pair at e1 e2 e3 e4 e5
  rw [f2] at e2
  rw [f3] at e3
  rw [hf] at e4
  rw [f5, hf] at e5
  by_cases hc : C.far a b = true
  · rw [if_pos hc] at e1 e2 e3 e4 e5
    subst e1 e2 e3 e4 e5
    simp
  · rw [if_neg hc] at e1 e2 e3 e4 e5
    obtain ⟨f, g, vr, pa, pb, ia, ib, fa, fb, a1, a2, a3, a4, a5, a6, a7, a8, a9, a10, a11⟩ := near_eq C a b
    obtain ⟨f', g', vr', pa', pb', ia', ib', fa', fb', b1, b2, b3, b4, b5, b6, b7, b8, b9, b10, b11⟩ := near_eq (inviscid C) a b
    obtain ⟨f'', g'', vr'', pa'', pb'', ia'', ib'', fa'', fb'', c1, c2, c3, c4, c5, c6, c7, c8, c9, c10, c11⟩ := near_eq (adiabatic C) a b
    simp only [inviscid] at b1 b2 b3 b4 b5 b6 b7 b8 b9
    simp only [adiabatic] at c1 c2 c3 c4 c5 c6 c9
    have hq : C.q a (rhoH C.pmass a.h C.hfact) (C.sqrt (dot (vsub a.x b.x) (vsub a.x b.x))) vr * vr ≤ 0 := q_sign C a _ _ _ hb hal hcs hah.1.le (hrho _ hah.1).le
    have hia : 0 ≤ ia := by
      rw [a3]
      exact mul_nonneg (div_nonneg zero_le_one (mul_pos hah.2 (hrho _ hah.1)).le) (div_nonneg zero_le_one (hrho _ hah.1).le)
    have hfa : fa ≤ 0 := by rw [a5]; exact hW _ _
    have hfb : fb ≤ 0 := by rw [a6]; exact hW _ _
    -- conduction
    have hcond : ∀ x y : K, x ≤ y → C.pmass * C.alphaU * vsigU C.sqrt a.p b.p (rhoH C.pmass a.h C.hfact) (rhoH C.pmass b.h C.hfact) * (y - x) * (1 / 2) *
      (fa / (a.omega * rhoH C.pmass a.h C.hfact) + fb / (b.omega * rhoH C.pmass b.h C.hfact)) ≤ 0 := by
      intro x y hxy
      refine mul_nonpos_of_nonneg_of_nonpos ?_ ?_
      · have hv : 0 ≤ vsigU C.sqrt a.p b.p (rhoH C.pmass a.h C.hfact) (rhoH C.pmass b.h C.hfact) := hs _
        exact mul_nonneg (mul_nonneg (mul_nonneg (mul_nonneg hm.1.le hau) hv) (sub_nonneg.2 hxy)) (by norm_num)
      · exact add_nonpos (div_nonpos_of_nonpos_of_nonneg hfa (mul_pos hah.2 (hrho _ hah.1)).le) (div_nonpos_of_nonpos_of_nonneg hfb (mul_pos hbh.2 (hrho _ hbh.1)).le)
    have v1 : vr' = vr := by rw [b2, b1, ← a1, ← a2]
    have v2 : vr'' = vr := by rw [c2, c1, ← a1, ← a2]
    have g1 : g' = g := by rw [b9, b5, b6, ← a5, ← a6, a9]
    have g2 : g'' = 0 := by rw [c9]; ring
    have k1 : ia' = ia := by rw [b3, ← a3]
    have k2 : ia'' = ia := by rw [c3, ← a3]
    have k3 : fa' = fa := by rw [b5, ← a5]
    have k4 : fa'' = fa := by rw [c5, ← a5]
    have k5 : pa'' = pa := by rw [c7, a7, v2]; rfl
    have k6 : pa' = a.p := by
      rw [b7]
      have : Cfg.q (inviscid C) a (rhoH C.pmass a.h C.hfact) (C.sqrt (dot (vsub a.x b.x) (vsub a.x b.x))) vr' = 0 := by
        unfold Cfg.q inviscid qAv Visc.alphaOf
        simp
      unfold inviscid at this
      rw [this, add_zero]
    have d1 : w.2 - wc.2 = g := by
      rw [e1, e3, a11, c11, k2, k4, k5, v2, g2]
      show C.pmass * (pa * ia * fa) * vr + g - (C.pmass * (pa * ia * fa) * vr + 0) = g
      ring
    refine ⟨?_, fun hu => ?_, fun hu => ?_, ?_⟩
    · rw [e1, e2, a11, b11, g1, k1, k3, k6, v1, a7]
      show C.pmass * (a.p * ia * fa) * vr + g ≤ _
      have := mul_nonneg (mul_nonneg hm.1.le hia) (mul_nonneg_of_nonpos_of_nonpos hfa hq)
      linarith [show C.pmass * ((a.p + C.q a (rhoH C.pmass a.h C.hfact) (C.sqrt (dot (vsub a.x b.x) (vsub a.x b.x))) vr) * ia * fa) * vr =
        C.pmass * (a.p * ia * fa) * vr + C.pmass * ia * (fa * (C.q a (rhoH C.pmass a.h C.hfact) (C.sqrt (dot (vsub a.x b.x) (vsub a.x b.x))) vr * vr)) by ring]
    · have := hcond b.u a.u hu
      rw [← a9] at this
      linarith
    · have := hcond a.u b.u hu
      have hg : g = -(C.pmass * C.alphaU * vsigU C.sqrt a.p b.p (rhoH C.pmass a.h C.hfact) (rhoH C.pmass b.h C.hfact) * (b.u - a.u) * (1 / 2) *
        (fa / (a.omega * rhoH C.pmass a.h C.hfact) + fb / (b.omega * rhoH C.pmass b.h C.hfact))) := by rw [a9]; ring
      linarith
    · have p1 := near_energy C M
      have p2 := near_energy (adiabatic C) M
      have p3 : ((adiabatic C).near a b).1 = (C.near a b).1 := rfl
      rw [p3] at p2
      rw [← e1, ← e4] at p1
      rw [← e1, ← e3, ← e5] at p2
      linarith

end
end Shamrock.Sph
