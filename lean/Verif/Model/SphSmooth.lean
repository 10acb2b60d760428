import Verif.Model.SphKernel
import Verif.Model.NeighCache
import Mathlib.Analysis.SpecialFunctions.Pow.Real

/-!
# Smoothing length iteration (`src/shammodels/sph`)

`IterateSmoothingLengthDensity`, `LoopSmoothingLengthIter`, `NodeComputeOmega` and the loop of
`Solver::sph_prestep`, over the reals.  Simplification: rounding is not modelled, but the outcome of a
division by zero is (`Ext`), because the code relies on comparisons with it.
-/

namespace Shamrock.Smooth

open Shamrock.Kern

/-- Outcome of an IEEE operation: a number, an infinity or not a number. -/
inductive Ext where
  | fin (x : ℝ)
  | pinf
  | ninf
  | nan

open Classical in
/-- IEEE division of finite numbers; a vanishing denominator is `+0` (it comes from a sum). -/
noncomputable def extDiv (a b : ℝ) : Ext :=
  if b = 0 then (if a = 0 then .nan else if 0 < a then .pinf else .ninf) else .fin (a / b)

/-- `h - x`. -/
noncomputable def subFrom (h : ℝ) : Ext → Ext
  | .fin x => .fin (h - x)
  | .pinf => .ninf
  | .ninf => .pinf
  | .nan => .nan

open Classical in
/-- `x < y`; every comparison with `nan` is false. -/
noncomputable def Ext.lt : Ext → ℝ → Bool
  | .fin x, y => decide (x < y)
  | .ninf, _ => true
  | _, _ => false

open Classical in
/-- `x > y`. -/
noncomputable def Ext.gt : Ext → ℝ → Bool
  | .fin x, y => decide (y < x)
  | .pinf, _ => true
  | _, _ => false

/-- `rho_h`, /repo/src/shammodels/sph/include/shammodels/sph/math/density.hpp:22-25. -/
noncomputable def rhoH (m h hfact : ℝ) : ℝ := m * (hfact / h) * (hfact / h) * (hfact / h)

/-- `newton_iterate_new_h` with `dim = 3`, density.hpp:32-41. -/
noncomputable def newtonNewH (rhoHa rhoSum sumdWdh ha : ℝ) : Ext :=
  let fIter := rhoSum - rhoHa
  let dfIter := sumdWdh + 3 * rhoHa / ha
  subFrom ha (extDiv fIter dfIter)

/-- `sycl::dot(dr, dr)` with `dr = xyz_a - r[id_b]`. -/
def dist2 (xa xb : V3 ℝ) : ℝ :=
  (xa.x - xb.x) * (xa.x - xb.x) + (xa.y - xb.y) * (xa.y - xb.y) + (xa.z - xb.z) * (xa.z - xb.z)

/-- Parameters: mass of a particle, `htol_up_coarse_cycle`, `htol_up_fine_cycle`, `epsilon_h`, and the
largest number of the floating point type. -/
structure Par where
  K : KernelDef
  m : ℝ
  hTot : ℝ
  hIter : ℝ
  epsH : ℝ
  big : ℝ

open Classical in
/-- The loop over the neighbours, IterateSmoothingLengthDensity.cpp:81-95 (also ComputeOmega.cpp:51-66):
the sums of the kernel and of its derivative in `h`. -/
noncomputable def sums (K : KernelDef) (m : ℝ) (pos : List (V3 ℝ)) (xa : V3 ℝ) (ha : ℝ) (ids : List Nat) :
    Option (ℝ × ℝ) :=
  let dint := ha * ha * K.Rkern * K.Rkern
  ids.foldlM (fun s b => do
    let xb ← pos[b]?
    let rab2 := dist2 xa xb
    if dint < rab2 then pure s
    else
      let rab := Real.sqrt rab2
      pure (s.1 + m * W_3d K rab ha, s.2 + m * dhW_3d K rab ha)) (0, 0)

/-- Limits on one iteration, IterateSmoothingLengthDensity.cpp:102-105. -/
noncomputable def limitIter (hIter ha : ℝ) (newH : Ext) : Ext :=
  let hm := 1 / hIter
  let newH := if newH.lt (ha * hm) then .fin (hm * ha) else newH
  if newH.gt (ha * hIter) then .fin (hIter * ha) else newH

open Classical in
/-- What is stored, IterateSmoothingLengthDensity.cpp:107-115.  (After the limits the value is a number
or not a number.) -/
noncomputable def store (hTot ha ha0 : ℝ) : Ext → ℝ × ℝ
  | .fin x => if x < ha0 * hTot then (x, |x - ha| / ha0) else (ha0 * hTot, -1)
  | _ => (ha0 * hTot, -1)

/-- One patch as the node sees it. -/
structure HPatch where
  cache : ObjCache
  pos : List (V3 ℝ)
  hOld : List ℝ
  hNew : List ℝ
  eps : List ℝ

open Classical in
/-- Work item `a`, IterateSmoothingLengthDensity.cpp:52-118: it reads and writes its own smoothing length
and its own `eps`. -/
noncomputable def item (P : Par) (cache : ObjCache) (pos : List (V3 ℝ)) (hOld : List ℝ)
    (s : List ℝ × List ℝ) (a : Nat) : Option (List ℝ × List ℝ) := do
  let e ← s.2[a]?
  if 1 / 1000000 < e then
    let xa ← pos[a]?
    let ha ← s.1[a]?
    let ids ← cache.forEach a
    let (rhoSum, sumdWdh) ← sums P.K P.m pos xa ha ids
    let rhoHa := rhoH P.m ha P.K.hfactd
    let newH := limitIter P.hIter ha (newtonNewH rhoHa rhoSum sumdWdh ha)
    let ha0 ← hOld[a]?
    let r := store P.hTot ha ha0 newH
    pure (s.1.set a r.1, s.2.set a r.2)
  else pure s

/-- The kernel on one patch, the work items run in the order `order`. -/
noncomputable def evalPatch (P : Par) (order : List Nat) (p : HPatch) : Option HPatch := do
  let s ← order.foldlM (item P p.cache p.pos p.hOld) (p.hNew, p.eps)
  pure { p with hNew := s.1, eps := s.2 }

/-- `IterateSmoothingLengthDensity::_impl_evaluate_internal` on the patches of one rank. -/
noncomputable def evaluate (P : Par) (orders : List (List Nat)) (st : List HPatch) :
    Option (List HPatch) :=
  (orders.zip st).mapM fun op => evalPatch P op.1 op.2

/-- `get_rank_max`, /repo/src/shamrock/include/shamrock/solvergraph/IFieldRefs.hpp:57-64. -/
noncomputable def rankMax (big : ℝ) (st : List HPatch) : ℝ :=
  st.foldl (fun r p => max r (p.eps.foldl max (-big))) (-big)

/-- `get_rank_min`, IFieldRefs.hpp:66-73. -/
noncomputable def rankMin (big : ℝ) (st : List HPatch) : ℝ :=
  st.foldl (fun r p => min r (p.eps.foldl min big)) big

open Classical in
/-- The loop of `LoopSmoothingLengthIter::_impl_evaluate_internal`,
/repo/src/shammodels/sph/src/modules/LoopSmoothingLengthIter.cpp:40-56; `orders` holds the execution
orders of the remaining iterations, at most `h_iter_per_subcycles` of them. -/
noncomputable def iterLoop (P : Par) : List (List (List Nat)) → List HPatch × ℝ →
    Option (List HPatch × ℝ)
  | [], s => some s
  | o :: os, s => do
    let st ← evaluate P o s.1
    let mx := rankMax P.big st
    if mx < P.epsH then pure (st, mx) else iterLoop P os (st, mx)

open Classical in
/-- LoopSmoothingLengthIter.cpp:37-66 on one rank: the new state and `local_is_converged`. -/
noncomputable def rankLoop (P : Par) (orders : List (List (List Nat))) (st : List HPatch) :
    Option (List HPatch × Bool) := do
  let s ← iterLoop P orders (st, P.big)
  let mn := rankMin P.big s.1
  let rerun := decide (mn < 0)
  let below := decide (s.2 < P.epsH)
  pure (s.1, below && !rerun)

/-- The node on all ranks; `is_converged` is the conjunction over the ranks
(LoopSmoothingLengthIter.cpp:68-69, /repo/src/shamalgs/src/collective/are_all_rank_true.cpp:24-32). -/
noncomputable def worldLoop (P : Par) (orders : List (List (List (List Nat))))
    (w : List (List HPatch)) : Option (List (List HPatch) × Bool) := do
  let rs ← (orders.zip w).mapM fun os => rankLoop P os.1 os.2
  pure (rs.map Prod.fst, (rs.map Prod.snd).all id)

/-- `NodeComputeOmega`, /repo/src/shammodels/sph/src/modules/ComputeOmega.cpp:41-74: particle `a`. -/
noncomputable def omegaItem (K : KernelDef) (m : ℝ) (cache : ObjCache) (pos : List (V3 ℝ))
    (hpart : List ℝ) (a : Nat) : Option ℝ := do
  let xa ← pos[a]?
  let ha ← hpart[a]?
  let ids ← cache.forEach a
  let (_, partOmegaSum) ← sums K m pos xa ha ids
  let rhoHa := rhoH m ha K.hfactd
  pure (1 + (ha / (3 * rhoHa)) * partOmegaSum)

/-- The patches at the start of a cycle of `sph_prestep`, Solver.cpp:1080-1168: the merged positions and the
neighbour cache built from the lengths `h`, `h_old = h_new = h`, and `epsilon_h` filled with 100. -/
def cycleWorld (build : List (List (List ℝ)) → List (List (ObjCache × List (V3 ℝ))))
    (h : List (List (List ℝ))) : List (List HPatch) :=
  (build h).zipWith (fun cp hs => cp.zipWith (fun (c : ObjCache × List (V3 ℝ)) hp =>
      (⟨c.1, c.2, hp, hp, List.replicate hp.length 100⟩ : HPatch)) hs) h

/-- The loop of `sph_prestep`, /repo/src/shammodels/sph/src/Solver.cpp:1080-1276: `cycles` holds, per
remaining cycle (at most `h_max_subcycles_count`), the construction of the merged positions and the
neighbour cache from the smoothing lengths (ghosts and trees: other properties) and the execution
orders.  The result is `some` world if a cycle converged; otherwise the caches have been freed, an error
is logged and the function goes on (lines 1274-1276), which is `none`. -/
noncomputable def prestep (P : Par) :
    List ((List (List (List ℝ)) → List (List (ObjCache × List (V3 ℝ)))) ×
      List (List (List (List Nat)))) →
    List (List (List ℝ)) → Option (List (List (List ℝ)) × Option (List (List HPatch)))
  | [], h => some (h, none)
  | (build, orders) :: cs, h => do
    let (w', conv) ← worldLoop P orders (cycleWorld build h)
    let h' := w'.map (fun r => r.map HPatch.hNew)
    if conv then pure (h', some w') else prestep P cs h'

end Shamrock.Smooth
