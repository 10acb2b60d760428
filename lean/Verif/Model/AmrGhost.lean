import Verif.Model.SphGhost
import Verif.Model.Amr
/-! Ghost blocks of the AMR finite volume solver: /repo/src/shammath/include/shammath/paving_function.hpp and
/repo/src/shammodels/ramses/{include/shammodels/ramses/modules,src/modules}/{FindGhostLayerCandidates,FindGhostLayerIndices,ExtractGhostLayer,
TransformGhostLayer,FuseGhostLayer}, called in this order at /repo/src/shammodels/ramses/src/Solver.cpp:739-826.

Grid coordinates are unbounded integers (no overflow of `i64`). The containers written by the nodes start empty. Not modelled: logging, timers, the
texts of the nodes. -/
namespace Shamrock.Gz
open Amr (coordX getIndex)

/-- `GhostType`, FindGhostLayerCandidates.hpp:33. -/
inductive GhostType
  | none
  | periodic
  | reflective
deriving DecidableEq, Repr

/-- `GhostLayerGenMode`, FindGhostLayerCandidates.hpp:35-39. -/
structure GMode where
  x : GhostType
  y : GhostType
  z : GhostType
deriving DecidableEq, Repr

/-- `paving_function_general_3d`, paving_function.hpp:133-161. -/
structure Paving where
  size : V3 Int
  center : V3 Int
  px : Bool
  py : Bool
  pz : Bool
deriving DecidableEq

/-- `sham::m1pown(u32)`, /repo/src/shambackends/include/shambackends/math.hpp:617-620; the argument is a converted `int`. -/
def m1pown (n : Int) : Int := if n % 2 ^ 32 % 2 = 0 then 1 else -1

/-- One component of `f`, paving_function.hpp:172-178. -/
def pav1 (per : Bool) (L c x i : Int) : Int := x + L * i + (if per then 0 else (x - c) * (m1pown i - 1))

/-- One component of `f_inv`, paving_function.hpp:189-196. -/
def pavInv1 (per : Bool) (L c x i : Int) : Int := x - L * i + (if per then 0 else (x - L * i - c) * (m1pown i - 1))

/-- `f`, paving_function.hpp:172-178. -/
def Paving.f (p : Paving) (v k : V3 Int) : V3 Int :=
  ⟨pav1 p.px p.size.x p.center.x v.x k.x, pav1 p.py p.size.y p.center.y v.y k.y, pav1 p.pz p.size.z p.center.z v.z k.z⟩

/-- `f_inv`, paving_function.hpp:189-196. -/
def Paving.finv (p : Paving) (v k : V3 Int) : V3 Int :=
  ⟨pavInv1 p.px p.size.x p.center.x v.x k.x, pavInv1 p.py p.size.y p.center.y v.y k.y, pavInv1 p.pz p.size.z p.center.z v.z k.z⟩

/-- `if (min[d] > max[d]) std::swap(min[d], max[d])`, paving_function.hpp:37-41: the two components after it. -/
def swap1 (a b : Int) : Int × Int := if a > b then (b, a) else (a, b)

def sortBox (mn mx : V3 Int) : Box Int :=
  ⟨⟨(swap1 mn.x mx.x).1, (swap1 mn.y mx.y).1, (swap1 mn.z mx.z).1⟩, ⟨(swap1 mn.x mx.x).2, (swap1 mn.y mx.y).2, (swap1 mn.z mx.z).2⟩⟩

/-- `f_aabb`, paving_function.hpp:27-44. -/
def Paving.fBox (p : Paving) (b : Box Int) (k : V3 Int) : Box Int := sortBox (p.f b.lower k) (p.f b.upper k)

/-- `f_aabb_inv`, paving_function.hpp:46-63. -/
def Paving.fBoxInv (p : Paving) (b : Box Int) (k : V3 Int) : Box Int := sortBox (p.finv b.lower k) (p.finv b.upper k)

/-- Component wise integer operations of `sycl::vec` with a scalar divisor (division rounds towards zero). -/
def tdiv2 (v : V3 Int) : V3 Int := ⟨v.x.tdiv 2, v.y.tdiv 2, v.z.tdiv 2⟩
def vsubI (a b : V3 Int) : V3 Int := ⟨a.x - b.x, a.y - b.y, a.z - b.z⟩
def vaddI (a b : V3 Int) : V3 Int := ⟨a.x + b.x, a.y + b.y, a.z + b.z⟩

/-- `get_paving`, FindGhostLayerCandidates.hpp:41-66 (the assertion on the volume is a debug check, not modelled). -/
def getPaving (mode : GMode) (sim : Box Int) : Res Paving :=
  let size := vsubI sim.upper sim.lower
  let center := tdiv2 (vaddI sim.upper sim.lower)
  if vsubI center (tdiv2 size) ≠ sim.lower ∨ vaddI center (tdiv2 size) ≠ sim.upper then .throws
  else .ok ⟨size, center, decide (mode.x = .periodic), decide (mode.y = .periodic), decide (mode.z = .periodic)⟩

/-- `repetition_x`, FindGhostLayerCandidates.hpp:72-74. -/
def rep (g : GhostType) : Int := if g ≠ .none then 1 else 0

/-- `for_each_paving_tile`, FindGhostLayerCandidates.hpp:68-83: the calls of `func`. -/
def tiles (mode : GMode) : List (V3 Int) := offsets3 (rep mode.x) (rep mode.y) (rep mode.z)

/-! ### FindGhostLayerCandidates -/

/-- The first callback, FindGhostLayerCandidates.cpp:56-62. -/
def nodeTouch (mapped : Box Int) (_ : Nat) (nd : SNode Int) : Bool := ((Box.mk nd.lo nd.hi).intersect mapped).isNotEmpty

/-- The second callback, FindGhostLayerCandidates.cpp:63-76. -/
def candOne (id : Nat) (k : V3 Int) (found : Nat × SNode Int) : Option ((Nat × Nat) × V3 Int) :=
  if found.1 = id ∧ k.x = 0 ∧ k.y = 0 ∧ k.z = 0 then none else some ((id, found.1), k)

/-- One turn of the inner loop, FindGhostLayerCandidates.cpp:49-77: the sequence of objects it adds. `boxes` is `patch_boxes.values` (`get` throws without
entry), `fuel` bounds the turns of the stack loop. -/
def candId (s : SSt Int) (roots : List Nat) (fuel : Nat) (pav : Paving) (boxes : Nat → Option (Box Int)) (k : V3 Int) (id : Nat) :
    Option (Res (List ((Nat × Nat) × V3 Int))) :=
  match boxes id with
  | none => some .throws
  | some b => (forEachLeaf s (nodeTouch (pav.fBox b k)) fuel roots.reverse []).map fun r => r.bind fun found => .ok (found.filterMap (candOne id k))

/-- The two loops, FindGhostLayerCandidates.cpp:45-79. -/
def candLoop (s : SSt Int) (roots : List Nat) (fuel : Nat) (pav : Paving) (boxes : Nat → Option (Box Int)) :
    List (V3 Int × Nat) → List ((Nat × Nat) × V3 Int) → Option (Res (List ((Nat × Nat) × V3 Int)))
  | [], m => some (.ok m)
  | p :: ps, m =>
    match candId s roots fuel pav boxes p.1 p.2 with
    | none => none
    | some .throws => some .throws
    | some .ub => some .ub
    | some (.ok l) => candLoop s roots fuel pav boxes ps (l.foldl mmEmplace m)

/-- FindGhostLayerCandidates, FindGhostLayerCandidates.cpp:23-80; `locals` is `ids_to_check`. -/
def findCandidates (mode : GMode) (sim : Box Int) (s : SSt Int) (roots : List Nat) (fuel : Nat) (boxes : Nat → Option (Box Int)) (locals : List Nat) :
    Option (Res (List ((Nat × Nat) × V3 Int))) :=
  match getPaving mode sim with
  | .throws => some .throws
  | .ub => some .ub
  | .ok pav => candLoop s roots fuel pav boxes ((tiles mode).flatMap fun k => locals.map fun id => (k, id)) []

/-! ### Layers -/

/-- A layer with the ghost layout (Solver.cpp:289-310): `cell_min`, `cell_max`, the scalar fields and the vector fields. -/
structure GLayer (F : Type) where
  bmin : PField (V3 Int)
  bmax : PField (V3 Int)
  scal : PLayer F
  vecs : PLayer (V3 F)

/-- The ghost layout: the number of values per block of each scalar and vector field. -/
structure GLayout where
  scal : List Nat
  vecs : List Nat

/-- Uninitialised contents. -/
structure Junk (F : Type) where
  grid : Nat → V3 Int
  scal : Nat → F
  vec : Nat → V3 F
  mask : Nat → W32
  idx : Nat → Nat

section
variable {F : Type}

/-- `PatchDataLayer(layout)`: no object. -/
def newLayer (ly : GLayout) : GLayer F := ⟨⟨1, []⟩, ⟨1, []⟩, ly.scal.map fun n => ⟨n, []⟩, ly.vecs.map fun n => ⟨n, []⟩⟩

/-- `append_subset_to`, PatchDataLayer.cpp:217-262: `ord` is the order of the work items of each launch. -/
def GLayer.appendSubset (j : Junk F) (ord : Nat → Nat → List Nat) (l : GLayer F) (idxs : List Nat) (out : GLayer F) : Res (GLayer F) :=
  (l.bmin.appendSubset j.grid (ord 0) idxs idxs.length out.bmin).bind fun a =>
  (l.bmax.appendSubset j.grid (ord 1) idxs idxs.length out.bmax).bind fun b =>
  (PLayer.appendSubset j.scal (fun q => ord (q + 2)) l.scal idxs out.scal).bind fun c =>
  (PLayer.appendSubset j.vec (fun q => ord (q + 2)) l.vecs idxs out.vecs).bind fun d => .ok ⟨a, b, c, d⟩

/-- `insert_elements`, PatchDataLayer.cpp:105-126. -/
def GLayer.insertElements (l p : GLayer F) : Res (GLayer F) :=
  (l.scal.insertElements p.scal).bind fun c => (l.vecs.insertElements p.vecs).bind fun d => .ok ⟨l.bmin.insert p.bmin, l.bmax.insert p.bmax, c, d⟩

/-! ### FindGhostLayerIndices -/

/-- Work item of the mask kernel, FindGhostLayerIndices.cpp:48-56. -/
def maskWrite (lo hi : List (V3 Int)) (vol : Box Int) (mask : List W32) (i : Nat) : Option (List W32) := do
  let a ← lo[i]?
  let b ← hi[i]?
  wr mask i (if ((Box.mk a b).intersect vol).isNotEmpty then 1 else 0)

/-- `get_ids_in_ghost`, FindGhostLayerIndices.cpp:31-63. -/
def idsInGhost (j : Junk F) (ord : Nat → Nat → List Nat) (lo hi : List (V3 Int)) (vol : Box Int) (n : Nat) : Res (List Nat) :=
  if 0 < n then do
    let mask ← Res.ofOpt ((ord 0 n).foldlM (maskWrite lo hi vol) ((List.range n).map j.mask))
    Res.ofOpt (streamCompact mask j.idx (ord 1 n))
  else .ok []

/-- One call of the function given to `map`, FindGhostLayerIndices.cpp:86-107. -/
def findIndicesOne (j : Junk F) (ord : Nat → Nat → List Nat) (pav : Paving) (boxes : Nat → Option (Box Int)) (data : List (Nat × GLayer F))
    (e : (Nat × Nat) × V3 Int) : Res ((Nat × Nat) × List Nat) :=
  match mfind data e.1.1, boxes e.1.2 with
  | some src, some brecv =>
    src.bmin.objCnt.bind fun n =>
    (idsInGhost j ord src.bmin.buf src.bmax.buf (pav.fBoxInv brecv e.2) n).bind fun ids => .ok (e.1, ids)
  | _, _ => .throws

/-- Entries one after the other (`i` the number of the first), adding each result to the new container. -/
def addEach {A B : Type} (op : Nat → (Nat × Nat) × A → Res ((Nat × Nat) × B)) : Nat → List ((Nat × Nat) × A) → List ((Nat × Nat) × B) → Res (List ((Nat × Nat) × B))
  | _, [], acc => .ok acc
  | i, e :: es, acc => (op i e).bind fun r => addEach op (i + 1) es (mmEmplace acc r)

/-- FindGhostLayerIndices, FindGhostLayerIndices.cpp:67-108. -/
def findIndices (mode : GMode) (sim : Box Int) (j : Junk F) (ord : Nat → Nat → Nat → List Nat) (boxes : Nat → Option (Box Int)) (data : List (Nat × GLayer F))
    (cands : List ((Nat × Nat) × V3 Int)) : Res (List ((Nat × Nat) × List Nat)) :=
  (getPaving mode sim).bind fun pav => addEach (fun i => findIndicesOne j (ord i) pav boxes data) 0 cands []

/-! ### ExtractGhostLayer -/

/-- One turn, ExtractGhostLayer.cpp:32-42. -/
def extractOne (ly : GLayout) (j : Junk F) (ord : Nat → Nat → List Nat) (data : List (Nat × GLayer F)) (e : (Nat × Nat) × List Nat) : Res ((Nat × Nat) × GLayer F) :=
  match mfind data e.1.1 with
  | none => .throws
  | some src => (src.appendSubset j ord e.2 (newLayer ly)).bind fun g => .ok (e.1, g)

/-- ExtractGhostLayer, ExtractGhostLayer.cpp:20-44. -/
def extractGhosts (ly : GLayout) (j : Junk F) (ord : Nat → Nat → Nat → List Nat) (data : List (Nat × GLayer F)) (idx : List ((Nat × Nat) × List Nat)) :
    Res (List ((Nat × Nat) × GLayer F)) :=
  addEach (fun i => extractOne ly j (ord i) data) 0 idx []

/-! ### TransformGhostLayer -/

/-- Work item of the kernel on the block bounds, TransformGhostLayer.cpp:86-96. -/
def boxStep (pav : Paving) (k : V3 Int) (m : List (V3 Int) × List (V3 Int)) (i : Nat) : Option (List (V3 Int) × List (V3 Int)) := do
  let a ← m.1[i]?
  let b ← m.2[i]?
  let m1 ← wr m.1 i (pav.fBox ⟨a, b⟩ k).lower
  let m2 ← wr m.2 i (pav.fBox ⟨a, b⟩ k).upper
  pure (m1, m2)

/-- `coord_list_transformed`, TransformGhostLayer.cpp:109-120. -/
def coordsMapped (pav : Paving) (k : V3 Int) : List (V3 Int) :=
  (List.range 8).map fun i => pav.f ⟨((coordX i).1 : Int), ((coordX i).2.1 : Int), ((coordX i).2.2 : Int)⟩ k

/-- `min_coord`, TransformGhostLayer.cpp:122-128 (`max_coord` is not used). -/
def minCoord (l : List (V3 Int)) : V3 Int := l.tail.foldl V3.min (l.headD ⟨0, 0, 0⟩)

/-- `static_cast<u32>`. -/
def castU32 (x : Int) : Nat := (x % 2 ^ 32).toNat

/-- `compute_field_var_permut`, TransformGhostLayer.cpp:107-142. -/
def cellPermut (pav : Paving) (k : V3 Int) : List Nat :=
  (coordsMapped pav k).map fun c =>
    getIndex (castU32 (c.x - (minCoord (coordsMapped pav k)).x)) (castU32 (c.y - (minCoord (coordsMapped pav k)).y)) (castU32 (c.z - (minCoord (coordsMapped pav k)).z))

/-- `apply_permut`, TransformGhostLayer.cpp:147-175. -/
def applyPermut {α : Type} (ord : Nat → List Nat) (permut : List Nat) (f : PField α) : Res (PField α) :=
  if f.nvar = 8 then f.permutVars ord permut
  else if f.nvar % 8 = 0 then
    f.permutVars ord (permut.flatMap fun p => (List.range (f.nvar / 8)).map fun j => p * (f.nvar / 8) + j)
  else if f.nvar = 1 then .ok f
  else .throws

/-- An operation on each field, in order. -/
def eachField {α : Type} (op : Nat → PField α → Res (PField α)) : Nat → PLayer α → Res (PLayer α)
  | _, [] => .ok []
  | i, f :: fs => (op i f).bind fun g => (eachField op (i + 1) fs).bind fun gs => .ok (g :: gs)

/-- `get_termwise_mul_vec`, TransformGhostLayer.cpp:189-199. -/
def mulVec (pav : Paving) (k : V3 Int) : V3 Int := vsubI (pav.f ⟨1, 1, 1⟩ k) (pav.f ⟨0, 0, 0⟩ k)

/-- `vec[i] * mul_compo_vec` with the factor converted to the scalar type. -/
def mulCompo [Mul F] [IntCast F] (m : V3 Int) (v : V3 F) : V3 F := ⟨v.x * (m.x : F), v.y * (m.y : F), v.z * (m.z : F)⟩

/-- Work item of the kernel on a vector field, TransformGhostLayer.cpp:209-217. -/
def mulStep [Mul F] [IntCast F] (m : V3 Int) (buf : List (V3 F)) (i : Nat) : Option (List (V3 F)) := do
  let v ← buf[i]?
  wr buf i (mulCompo m v)

/-- `transform_vecs` on a vector field, TransformGhostLayer.cpp:205-217 (nothing is done on the other fields). -/
def transformVec [Mul F] [IntCast F] (ord : Nat → List Nat) (m : V3 Int) (f : PField (V3 F)) : Res (PField (V3 F)) :=
  f.objCnt.bind fun n => (Res.ofOpt ((ord (n * f.nvar)).foldlM (mulStep m) f.buf)).bind fun b => .ok ⟨f.nvar, b⟩

/-- Which components `transform_vec_x`, ... ask for. -/
structure TVec where
  x : Bool
  y : Bool
  z : Bool

/-- One turn of the loop, TransformGhostLayer.cpp:66-228, for the offset `k`. `ord` is the order of the work items of each launch. -/
def transformOne [Mul F] [IntCast F] (tv : TVec) (pav : Paving) (ord : Nat → Nat → List Nat) (k : V3 Int) (g : GLayer F) : Res (GLayer F) :=
  g.bmin.objCnt.bind fun n =>
  (Res.ofOpt ((ord 0 n).foldlM (boxStep pav k) (g.bmin.buf, g.bmax.buf))).bind fun b =>
  (applyPermut (ord 1) (cellPermut pav k) ⟨g.bmin.nvar, b.1⟩).bind fun bmin =>
  (applyPermut (ord 2) (cellPermut pav k) ⟨g.bmax.nvar, b.2⟩).bind fun bmax =>
  (eachField (fun q => applyPermut (ord (q + 3)) (cellPermut pav k)) 0 g.scal).bind fun scal =>
  (eachField (fun q => applyPermut (ord (q + 3)) (cellPermut pav k)) 0 g.vecs).bind fun vecs =>
  if (k.x ≠ 0 ∧ tv.x) ∨ (k.y ≠ 0 ∧ tv.y) ∨ (k.z ≠ 0 ∧ tv.z) then
    (eachField (fun q => transformVec (ord (q + 3)) (mulVec pav k)) 0 vecs).bind fun vecs' => .ok ⟨bmin, bmax, scal, vecs'⟩
  else .ok ⟨bmin, bmax, scal, vecs⟩

/-- The loop over both containers, TransformGhostLayer.cpp:62-229 (past the end of the shorter one: not reached). -/
def transformLoop [Mul F] [IntCast F] (tv : TVec) (pav : Paving) (ord : Nat → Nat → Nat → List Nat) :
    Nat → List ((Nat × Nat) × GLayer F) → List ((Nat × Nat) × V3 Int) → Res (List ((Nat × Nat) × GLayer F))
  | _, [], _ => .ok []
  | _, _ :: _, [] => .ub
  | i, e :: es, c :: cs => (transformOne tv pav (ord i) c.2 e.2).bind fun g => (transformLoop tv pav ord (i + 1) es cs).bind fun gs => .ok ((e.1, g) :: gs)

/-- TransformGhostLayer, TransformGhostLayer.cpp:31-230. -/
def transformGhosts [Mul F] [IntCast F] (mode : GMode) (sim : Box Int) (tv : TVec) (ord : Nat → Nat → Nat → List Nat) (gs : List ((Nat × Nat) × GLayer F))
    (cands : List ((Nat × Nat) × V3 Int)) : Res (List ((Nat × Nat) × GLayer F)) :=
  (getPaving mode sim).bind fun pav => if gs.length ≠ cands.length then .throws else transformLoop tv pav ord 0 gs cands

/-! ### FuseGhostLayer -/

/-- Replace the value of a key. -/
def mput {V : Type} (m : List (Nat × V)) (k : Nat) (v : V) : List (Nat × V) := m.map fun e => if e.1 = k then (k, v) else e

/-- FuseGhostLayer, FuseGhostLayer.cpp:18-30 (`get` throws without entry). -/
def fuseGhosts : List ((Nat × Nat) × GLayer F) → List (Nat × GLayer F) → Res (List (Nat × GLayer F))
  | [], data => .ok data
  | e :: es, data =>
    match mfind data e.1.2 with
    | none => .throws
    | some l => (l.insertElements e.2).bind fun l' => fuseGhosts es (mput data e.1.2 l')

/-- The configuration of a direction, Solver.cpp:724-733 (`BCConfig::GhostType`). -/
inductive BCond
  | periodic
  | reflective
  | outflow
deriving DecidableEq, Repr

/-- `cfg_bc_to_geom`, Solver.cpp:724-733. -/
def BCond.geom : BCond → GhostType
  | .periodic => .periodic
  | .reflective => .reflective
  | .outflow => .reflective

/-- `ghost_layer_gen_mode`, Solver.cpp:735-738. -/
def modeOf (x y z : BCond) : GMode := ⟨x.geom, y.geom, z.geom⟩

/-- `transform_vec_x`, ..., Solver.cpp:741-743. -/
def tvecOf (x y z : BCond) : TVec := ⟨decide (x ≠ .outflow), decide (y ≠ .outflow), decide (z ≠ .outflow)⟩

end
end Shamrock.Gz
