import Verif.Model.SphForce
import Verif.Model.Scan
/-! Sink particles: /repo/src/shammodels/sph/src/modules/SinkParticlesFlagAccreteHard.cpp, SinkParticlesAccreteQuantities.cpp,
SinkParticlesEvictAccretedParticles.cpp, SinkParticlesUpdate.cpp, and the leapfrog of the gas, /repo/src/shammodels/sph/src/Solver.cpp.

Arithmetic is exact (an ordered field), the square root is an arbitrary function; a division by zero has no value. Particles are records (the edits of the fields of a layer are
C39). Sums (`primitives::sum`, `allreduce_sum`) go through the elements in order: with exact arithmetic the order has no effect. -/
namespace Shamrock.Sph

section
variable {K : Type} [Field K] [LinearOrder K]

/-- The fields `xyz`, `vxyz`, `axyz`, `axyz_ext` of a particle. -/
structure Ptcl (K : Type) where
  x : V3 K
  v : V3 K
  a : V3 K
  ext : V3 K
deriving DecidableEq

/-- A sink, /repo/src/shammodels/sph/include/shammodels/sph/SinkPartStruct.hpp:24-36 (the solver keeps one vector for each of these fields, sink_edges_helper.hpp). -/
structure Sink (K : Type) where
  pos : V3 K
  vel : V3 K
  accSph : V3 K
  accExt : V3 K
  mass : K
  ang : V3 K
  racc : K
deriving DecidableEq

/-- `u32_max`. -/
def noSink : Nat := 4294967295

/-- The loop over the sinks, SinkParticlesFlagAccreteHard.cpp:81-90, from sink `i`. -/
def flagLoop (r : V3 K) : Nat → List (Sink K) → Nat
  | _, [] => noSink
  | i, s :: ss => let d := vsub r s.pos; if dot d d ≤ s.racc * s.racc then i else flagLoop r (i + 1) ss

/-- `sink_accretion_table` of one patch, SinkParticlesFlagAccreteHard.cpp:65-93. -/
def flagTable (sinks : List (Sink K)) (ps : List (Ptcl K)) : List Nat := ps.map fun p => flagLoop p.x 0 sinks

/-- `primitives::sum` of vectors. -/
def vsum (l : List (V3 K)) : V3 K := l.foldl vadd ⟨0, 0, 0⟩

/-- The five sums of a sink: mass, momentum, mass times position, mass times acceleration, angular momentum. -/
structure AccSum (K : Type) where
  m : K
  p : V3 K
  mr : V3 K
  ma : V3 K
  l : V3 K

def AccSum.add (a b : AccSum K) : AccSum K := ⟨a.m + b.m, vadd a.p b.p, vadd a.mr b.mr, vadd a.ma b.ma, vadd a.l b.l⟩
def AccSum.zero : AccSum K := ⟨0, ⟨0, 0, 0⟩, ⟨0, 0, 0⟩, ⟨0, 0, 0⟩, ⟨0, 0, 0⟩⟩

/-- The kernel over the accreted particles, SinkParticlesAccreteQuantities.cpp:115-127, of one particle: `accretion_l`. -/
def accL (pm dt : K) (s : Sink K) (p : Ptcl K) : V3 K :=
  let v := vadd p.v (smul (1 / 2) (smul dt p.a))
  smul pm (cross (vsub p.x s.pos) (vsub v s.vel))

/-- One patch, SinkParticlesAccreteQuantities.cpp:69-141. `garbage` and `order`: see `streamCompact`. -/
def accretePatch (garbage : Nat → Nat) (order : List Nat) (pm dt : K) (s : Sink K) (i : Nat) (table : List Nat) (ps : List (Ptcl K)) : Option (AccSum K) :=
  (streamCompact (table.map fun t => if t = i then (1 : W32) else 0) garbage order).bind fun ids =>
  if 0 < ids.length then
    (ids.mapM fun k => ps[k]?).bind fun sel =>
      some ⟨pm * (ids.length : K), vsum (sel.map fun p => smul pm p.v), vsum (sel.map fun p => smul pm p.x), vsum (sel.map fun p => smul pm p.a), vsum (sel.map (accL pm dt s))⟩
  else some AccSum.zero

/-- The patches of a rank, with their tables; patch `k` has its own schedule. -/
def accreteRank (garbage : Nat → Nat) (order : Nat → List Nat) (pm dt : K) (s : Sink K) (i : Nat) : Nat → List (List Nat × List (Ptcl K)) → Option (AccSum K)
  | _, [] => some AccSum.zero
  | k, p :: ps => (accretePatch garbage (order k) pm dt s i p.1 p.2).bind fun a => (accreteRank garbage order pm dt s i (k + 1) ps).bind fun b => some (a.add b)

/-- All ranks and `allreduce_sum`, lines 143-153. -/
def accreteWorld (garbage : Nat → Nat) (order : Nat → Nat → List Nat) (pm dt : K) (s : Sink K) (i : Nat) : Nat → List (List (List Nat × List (Ptcl K))) → Option (AccSum K)
  | _, [] => some AccSum.zero
  | r, w :: ws => (accreteRank garbage (order r) pm dt s i 0 w).bind fun a => (accreteWorld garbage order pm dt s i (r + 1) ws).bind fun b => some (a.add b)

/-- The new values of the sink, lines 145-174; the division by a mass of zero has no value. -/
def Sink.accrete (s : Sink K) (t : AccSum K) : Option (Sink K) :=
  if t.m ≤ 0 then some s
  else
    let M := s.mass + t.m
    if M = 0 then none
    else
      let pos := smul (1 / M) (vadd t.mr (smul s.mass s.pos))
      let vel := smul (1 / M) (vadd t.p (smul s.mass s.vel))
      let acc := smul (1 / M) (vadd t.ma (smul s.mass s.accSph))
      some { s with mass := M, pos := pos, vel := vel, accSph := acc,
                    ang := vsub (vadd s.ang t.l) (smul M (cross (vsub pos s.pos) (vsub vel s.vel))) }

/-- The loop over the sinks, lines 56-184: sink `i` and the following ones. -/
def accreteSinks (garbage : Nat → Nat) (order : Nat → Nat → Nat → List Nat) (pm dt : K) (w : List (List (List Nat × List (Ptcl K)))) : Nat → List (Sink K) → Option (List (Sink K))
  | _, [] => some []
  | i, s :: ss => (accreteWorld garbage (order i) pm dt s i 0 w).bind fun t => (s.accrete t).bind fun s' =>
      (accreteSinks garbage order pm dt w (i + 1) ss).bind fun ss' => some (s' :: ss')

/-- One patch, SinkParticlesEvictAccretedParticles.cpp:40-80: `fetch_or` of all items, then `keep_ids`. -/
def evictPatch (garbage : Nat → Nat) (order : List Nat) (table : List Nat) (ps : List (Ptcl K)) : Option (List (Ptcl K)) :=
  if table.any fun t => decide (t ≠ noSink) then
    (streamCompact (table.map fun t => if t = noSink then (1 : W32) else 0) garbage order).bind fun ids => ids.mapM fun k => ps[k]?
  else some ps

def evictRank (garbage : Nat → Nat) (order : Nat → List Nat) : Nat → List (List Nat × List (Ptcl K)) → Option (List (List (Ptcl K)))
  | _, [] => some []
  | k, p :: ps => (evictPatch garbage (order k) p.1 p.2).bind fun a => (evictRank garbage order (k + 1) ps).bind fun b => some (a :: b)

def evictWorld (garbage : Nat → Nat) (order : Nat → Nat → List Nat) : Nat → List (List (List Nat × List (Ptcl K))) → Option (List (List (List (Ptcl K))))
  | _, [] => some []
  | r, w :: ws => (evictRank garbage (order r) 0 w).bind fun a => (evictWorld garbage order (r + 1) ws).bind fun b => some (a :: b)

/-- The node "sink accretion", Solver.cpp:725-758: flags, sums, eviction. The world is a list of ranks, each a list of patches. -/
def sinkAccretion (garbage : Nat → Nat) (order : Nat → Nat → Nat → List Nat) (orderE : Nat → Nat → List Nat) (pm dt : K) (w : List (List (List (Ptcl K)))) (sinks : List (Sink K)) :
    Option (List (List (List (Ptcl K))) × List (Sink K)) :=
  let tw := w.map fun r => r.map fun ps => (flagTable sinks ps, ps)
  (accreteSinks garbage order pm dt tw 0 sinks).bind fun ss => (evictWorld garbage orderE 0 tw).bind fun w' => some (w', ss)

/-! ### Forces -/

/-- `force` of a sink on a particle over the mass of the sink, SinkParticlesUpdate.cpp:125-140. -/
def sinkForce (sqrt : K → K) (G : K) (s : Sink K) (x : V3 K) : Option (V3 K) :=
  let delta := vsub x s.pos
  let d := sqrt (dot delta delta)
  if d < s.racc then some ⟨0, 0, 0⟩ else if d * d * d = 0 then none else some (smul (1 / (d * d * d)) (smul G delta))

/-- The kernel on one patch for one sink, lines 104-150: new particles and the sum of `axyz_sync`. -/
def sinkPatch (sqrt : K → K) (G pm : K) (s : Sink K) (ps : List (Ptcl K)) : Option (List (Ptcl K) × V3 K) :=
  (ps.mapM fun p => (sinkForce sqrt G s p.x).map fun f => ({ p with ext := vadd p.ext (smul (-s.mass) f) }, smul pm f)).bind fun l =>
    some (l.map (·.1), vsum (l.map (·.2)))

/-- The patches of a rank for one sink, lines 104-150. -/
def sinkRank (sqrt : K → K) (G pm : K) (s : Sink K) : List (List (Ptcl K)) → Option (List (List (Ptcl K)) × V3 K)
  | [] => some ([], ⟨0, 0, 0⟩)
  | ps :: r => (sinkPatch sqrt G pm s ps).bind fun a => (sinkRank sqrt G pm s r).bind fun b => some (a.1 :: b.1, vadd a.2 b.2)

/-- The loop over the sinks of a rank, lines 100-153: new patches and `result_acc_sinks`. -/
def sinkLoop (sqrt : K → K) (G pm : K) : List (Sink K) → List (List (Ptcl K)) → Option (List (List (Ptcl K)) × List (V3 K))
  | [], r => some (r, [])
  | s :: ss, r => (sinkRank sqrt G pm s r).bind fun a => (sinkLoop sqrt G pm ss a.1).bind fun b => some (b.1, a.2 :: b.2)

/-- The sum over the ranks, lines 155-166, for sink `k` of `n` (`gathered`: C26); a read beyond the end has no value. -/
def sinkGather (gathered : List (V3 K)) (n k : Nat) : List Nat → Option (V3 K)
  | [] => some ⟨0, 0, 0⟩
  | rid :: rest => (gathered[rid * n + k]?).bind fun a => (sinkGather gathered n k rest).bind fun b => some (vadd a b)

/-- compute_sph_forces on all ranks, lines 69-167; `axyz_ext` has been set to zero before, ExternalForces.cpp:65-68. -/
def sphSinkForces (sqrt : K → K) (G pm : K) (w : List (List (List (Ptcl K)))) (sinks : List (Sink K)) : Option (List (List (List (Ptcl K))) × List (Sink K)) :=
  let w0 := w.map fun r => r.map fun ps => ps.map fun p => { p with ext := ⟨0, 0, 0⟩ }
  if sinks.length = 0 then some (w0, sinks)
  else
    (w0.mapM (sinkLoop sqrt G pm sinks)).bind fun l =>
    ((List.range sinks.length).mapM fun k => (sinkGather ((l.map (·.2)).flatten) sinks.length k (List.range w.length)).bind fun a =>
      (sinks[k]?).map fun s => { s with accSph := a }).bind fun ss => some (l.map (·.1), ss)

/-- `acc_ext` of sink `s`, lines 190-197. (`epsilon_grav_sink` is positive, so that no division is by zero.) -/
def sinkExt (sqrt : K → K) (G eps : K) (sinks : List (Sink K)) (s : Sink K) : V3 K :=
  sinks.foldl (fun acc t =>
    let rij := vsub s.pos t.pos
    let d := sqrt (dot rij rij)
    vsub acc (smul (1 / (d * d * d + eps)) (smul (G * t.mass) rij))) ⟨0, 0, 0⟩

/-- compute_ext_forces, lines 170-199. -/
def extForces (sqrt : K → K) (G eps : K) (sinks : List (Sink K)) : List (Sink K) := sinks.map fun s => { s with accExt := sinkExt sqrt G eps sinks s }

/-- `vel += (dt / 2) * (acc_sph + acc_ext)`, lines 40-42 and 63-65. -/
def kickSink (dt : K) (s : Sink K) : Sink K := { s with vel := vadd s.vel (smul (dt / 2) (vadd s.accSph s.accExt)) }

/-- predictor_step, lines 24-47. -/
def predictorSinks (sqrt : K → K) (G eps dt : K) (sinks : List (Sink K)) : List (Sink K) :=
  ((extForces sqrt G eps sinks).map (kickSink dt)).map fun s => { s with pos := vadd s.pos (smul dt s.vel) }

/-- The predictor of the gas, Solver.cpp:495-526, with ForwardEuler.hpp:59-61: half step of the velocity, full step of the position, half step of the velocity. -/
def predictorGas (dt : K) (p : Ptcl K) : Ptcl K :=
  let v1 := vadd p.v (smul (dt / 2) p.a)
  let x1 := vadd p.x (smul dt v1)
  { p with x := x1, v := vadd v1 (smul (dt / 2) p.a) }

/-- One turn of the corrector loop, Solver.cpp:2413-2455 with integrators.cpp:108-110: the old acceleration is saved, the new one is that of the SPH kernel (`sph`, C62) plus
`axyz_ext` (ExternalForces.cpp:352-354). -/
def correctGas (dt : K) (p : Ptcl K) (sph : V3 K) : Ptcl K :=
  let a' := vadd sph p.ext
  { p with a := a', v := vadd p.v (smul (dt / 2) (vsub a' p.a)) }

def correctPatch (dt : K) (ps : List (Ptcl K)) (sph : List (V3 K)) : List (Ptcl K) := (ps.zip sph).map fun q => correctGas dt q.1 q.2
def correctWorld (dt : K) (w : List (List (List (Ptcl K)))) (sph : List (List (List (V3 K)))) : List (List (List (Ptcl K))) :=
  (w.zip sph).map fun r => (r.1.zip r.2).map fun q => correctPatch dt q.1 q.2

/-- A time step, Solver.cpp:1970-2620: accretion, predictors, sink forces, move of the particles between patches (boundary, reordering, load balancing: `move`), corrector turns (one for each
element of `sphs`, the SPH kernel on the particles as they are at that turn), corrector of the sinks. External potentials, point mass accretion and particle killing are not configured. -/
def sinkStep (sqrt : K → K) (G eps pm dt : K) (garbage : Nat → Nat) (order : Nat → Nat → Nat → List Nat) (orderE : Nat → Nat → List Nat)
    (move : List (List (List (Ptcl K))) → List (List (List (Ptcl K)))) (sphs : List (List (List (List (Ptcl K))) → List (List (List (V3 K))))) (w : List (List (List (Ptcl K)))) (sinks : List (Sink K)) :
    Option (List (List (List (Ptcl K))) × List (Sink K)) :=
  (sinkAccretion garbage order orderE pm dt w sinks).bind fun st =>
  let s1 := predictorSinks sqrt G eps dt st.2
  let w1 := st.1.map fun r => r.map fun ps => ps.map (predictorGas dt)
  let s2 := extForces sqrt G eps s1
  (sphSinkForces sqrt G pm w1 s2).bind fun st2 =>
  some (sphs.foldl (fun w f => correctWorld dt w (f w)) (move st2.1), st2.2.map (kickSink dt))

end
end Shamrock.Sph
