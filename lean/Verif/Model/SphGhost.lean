import Verif.Model.SerialTree
import Verif.Model.Kernel
import Verif.Model.TreeOps
import Verif.Model.Box
import Verif.Model.SparseComm
/-! SPH ghost zones: /repo/src/shammodels/sph/src/BasicSPHGhosts.cpp, /repo/src/shammodels/sph/include/shammodels/sph/BasicSPHGhosts.hpp and
/repo/src/shamrock/include/shamrock/scheduler/SerialPatchTree.hpp (`make_patch_tree_field`).

Coordinates are of a type `F` with comparison and arithmetic without laws here; NaN is excluded by the linear order. Of a patch only the
position and the smoothing length are kept. Not modelled: the shift speed, the volume ratios and the warnings computed from them, logging, timers. -/
namespace Shamrock

section
variable {F : Type}

/-- `+`, `-` of `sycl::vec`, component wise, and with a scalar (broadcast). -/
def V3.addv [Add F] (a b : V3 F) : V3 F := ⟨a.x + b.x, a.y + b.y, a.z + b.z⟩
def V3.negv [Neg F] (a : V3 F) : V3 F := ⟨-a.x, -a.y, -a.z⟩
def V3.adds [Add F] (a : V3 F) (h : F) : V3 F := ⟨a.x + h, a.y + h, a.z + h⟩
def V3.subs [Sub F] (a : V3 F) (h : F) : V3 F := ⟨a.x - h, a.y - h, a.z - h⟩

/-- `CoordRange::add_offset`, CoordRange.hpp:81. -/
def Box.addOffset [Add F] (b : Box F) (o : V3 F) : Box F := ⟨b.lower.addv o, b.upper.addv o⟩

/-- `CoordRange::expand_all`, CoordRange.hpp:48-50. -/
def Box.expandAll [Add F] [Sub F] (b : Box F) (h : F) : Box F := ⟨b.lower.subs h, b.upper.adds h⟩

/-! ### The field on the patch tree -/

/-- `sham::max_8points`, /repo/src/shambackends/include/shambackends/math.hpp:570-572, on the values read by the work item. -/
def max8 [LinearOrder F] [Zero F] : List F → F
  | [a, b, c, d, e, f, g, h] => max (max (max a b) (max c d)) (max (max e f) (max g h))
  | _ => 0

/-- Write the reduction of the values read. -/
def reduceStep [LinearOrder F] [Zero F] (a : Nat) : KStep (List F) F := fun l m => if a < m.length then some ([], m.set a (max8 l)) else none

/-- Work item `i`, SerialPatchTree.hpp:208-217: the accesses to the shared buffer are separate steps, so that work items of one launch may interleave
in any way (a child may be read before or after it is rewritten in the same launch). -/
def treeItem [LinearOrder F] [Zero F] (s : SSt F) (i : Nat) : List (KStep (List F) F) :=
  match s.nodes[i]? with
  | none => [fun _ _ => none]
  | some nd => if nd.childs.head? ≠ some u64max then nd.childs.map readStep ++ [reduceStep i] else []

/-- The launches, SerialPatchTree.hpp:202-219; `scheds` gives the schedule of each. -/
def treeLaunches [LinearOrder F] [Zero F] (s : SSt F) : List (List Nat) → List F → Option (List F)
  | [], m => some m
  | sc :: r, m => (kLaunch s.nodes.length (treeItem s) [] sc m).bind (treeLaunches s r)

/-- make_patch_tree_field with the reducer `max_8points`, SerialPatchTree.hpp:178-221, called at
/repo/src/shammodels/sph/include/shammodels/sph/SPHUtilities.hpp:95-101. `rho` is the patch field (`get` of an id without value throws, not
modelled: every patch has one). `level_count` is the largest level, SerialPatchTree.cpp:22-45, 186-192. -/
def treeField [LinearOrder F] [Zero F] (s : SSt F) (rho : Nat → F) (scheds : Nat → List Nat) : Option (List F) :=
  treeLaunches s ((List.range s.lev).map scheds) (s.links.map fun l => if l ≠ u64max then rho l else 0)

/-! ### Shifts -/

/-- `for (i32 xoff = -r; xoff <= r; xoff++)`. -/
def offsets (r : Int) : List Int := (List.range (2 * r + 1).toNat).map fun (i : Nat) => (i : Int) - r

/-- The three nested loops over the offsets, BasicSPHGhosts.cpp:296-298 and 216-218. -/
def offsets3 (rx ry rz : Int) : List (V3 Int) := (offsets rx).flatMap fun x => (offsets ry).flatMap fun y => (offsets rz).map fun z => ⟨x, y, z⟩

/-- A shift of the loops of `find_interfaces`: integer offset and displacement. -/
abbrev Shift (F : Type) := V3 Int × V3 F

/-- Free boundary, BasicSPHGhosts.cpp:435, 480 (the condition at line 463 has no test on the offset: it is zero). -/
def freeShifts [Zero F] : List (Shift F) := [(⟨0, 0, 0⟩, ⟨0, 0, 0⟩)]

/-- Periodic boundary, BasicSPHGhosts.cpp:271-273, 296-301. -/
def periodicShifts [Mul F] [IntCast F] (bsize : V3 F) : List (Shift F) :=
  (offsets3 1 1 1).map fun k => (k, ⟨(k.x : F) * bsize.x, (k.y : F) * bsize.y, (k.z : F) * bsize.z⟩)

/-- `ShearingPeriodic`, BasicSPHGhosts.hpp:46-51. -/
structure ShearCfg (F : Type) where
  base : V3 Int
  dir : V3 Int
  value : F

/-- The `d` of BasicSPHGhosts.cpp:177-181 and 220-224. -/
def ShearCfg.d (c : ShearCfg F) (k : V3 Int) : Int := k.x * c.base.x + k.y * c.base.y + k.z * c.base.z

/-- compute_shift_infos, BasicSPHGhosts.cpp:174-193 (the displacement). -/
def shearShift [Mul F] [Add F] [IntCast F] (c : ShearCfg F) (bsize : V3 F) (k : V3 Int) : V3 F :=
  ⟨((c.d k * c.dir.x : Int) : F) * c.value + bsize.x * (k.x : F), ((c.d k * c.dir.y : Int) : F) * c.value + bsize.y * (k.y : F),
   ((c.d k * c.dir.z : Int) : F) * c.value + bsize.z * (k.z : F)⟩

/-- The integer offsets of for_each_patch_shift, BasicSPHGhosts.cpp:203-244. `trunc` is the conversion to `int` (no overflow modelled). -/
def shearOffsets [Mul F] [Add F] [Div F] [IntCast F] (trunc : F → Int) (c : ShearCfg F) (bsize : V3 F) : List (V3 Int) :=
  let sz := bsize.x * (c.dir.x : F) + bsize.y * (c.dir.y : F) + bsize.z * (c.dir.z : F)
  (offsets3 (1 + c.dir.x.natAbs) (1 + c.dir.y.natAbs) (1 + c.dir.z.natAbs)).map fun k =>
    let df := -trunc ((c.d k : F) * c.value / sz)
    ⟨k.x + c.dir.x * df, k.y + c.dir.y * df, k.z + c.dir.z * df⟩

/-- for_each_patch_shift, BasicSPHGhosts.cpp:196-256, as the list of the calls of `funct`. -/
def shearShifts [Mul F] [Add F] [Div F] [IntCast F] (trunc : F → Int) (c : ShearCfg F) (bsize : V3 F) : List (Shift F) :=
  (shearOffsets trunc c bsize).map fun k => (k, shearShift c bsize k)

/-! ### find_interfaces -/

/-- `InterfaceBuildInfos`, BasicSPHGhosts.hpp:71-77, without speed and volume ratio. -/
structure Interf (F : Type) where
  off : V3 F
  ioff : V3 Int
  cut : Box F

/-- The first callback, BasicSPHGhosts.cpp:323-330 (394-398, 455-461): `tf` the field on the tree (it has an entry for each node). -/
def nodeHit [LinearOrder F] [Add F] [Sub F] (tf : List F) (senderOff : Box F) (id : Nat) (nd : SNode F) : Bool :=
  match tf[id]? with
  | none => false
  | some r => (Box.intersect ⟨nd.lo.subs r, nd.hi.adds r⟩ senderOff).isNotEmpty

/-- The second callback, BasicSPHGhosts.cpp:331-353 (399-424, 462-483): what it adds to the map. -/
def foundOne [LinearOrder F] [Add F] [Sub F] [Neg F] (rho : Nat → F) (sid : Nat) (sbox : Box F) (sh : Shift F) (found : Nat × SNode F) :
    Option ((Nat × Nat) × Interf F) :=
  if found.1 = sid ∧ sh.1 = ⟨0, 0, 0⟩ then none
  else some ((sid, found.1), ⟨sh.2, sh.1, sbox.intersect (((Box.mk found.2.lo found.2.hi).expandAll (rho found.1)).addOffset sh.2.negv)⟩)

/-- The body of the loop over the local patches, BasicSPHGhosts.cpp:310-356: the sequence of objects it adds. `fuel` bounds the turns of the stack
loop (`none` beyond). -/
def senderHits [LinearOrder F] [Add F] [Sub F] [Neg F] (s : SSt F) (ids : List Nat) (tf : List F) (rho : Nat → F) (fuel : Nat) (sh : Shift F)
    (p : Nat × Box F) : Option (Res (List ((Nat × Nat) × Interf F))) :=
  if p.1 = u64max then some (.ok [])
  else (forEachLeaf s (nodeHit tf (p.2.addOffset sh.2)) fuel ids.reverse []).map fun r => r.bind fun found =>
    .ok (found.filterMap (foundOne rho p.1 p.2 sh))

/-- Order of the critical sections of the threads of an OpenMP loop: any interleaving of the sequences of the iterations. -/
inductive Interleaves {α : Type} : List (List α) → List α → Prop
  | done (ls : List (List α)) (h : ∀ l ∈ ls, l = []) : Interleaves ls []
  | step (pre post : List (List α)) (a : α) (l r : List α) (h : Interleaves (pre ++ l :: post) r) : Interleaves (pre ++ (a :: l) :: post) (a :: r)

/-- All iterations of one parallel loop (`none`: one does not end; the first error wins). -/
def sendersAll {α : Type} : List (Option (Res (List α))) → Option (Res (List (List α)))
  | [] => some (.ok [])
  | none :: _ => none
  | some r :: rest => (sendersAll rest).map fun q => r.bind fun l => q.bind fun ls => .ok (l :: ls)

/-- find_interfaces, BasicSPHGhosts.cpp:261-509: `locals` are the ids and boxes of `patch_list.local`, `omp i` the order in which the critical
sections of the loop for shift number `i` run. -/
def findInterfaces [LinearOrder F] [Add F] [Sub F] [Neg F] (s : SSt F) (ids : List Nat) (tf : List F) (rho : Nat → F) (fuel : Nat)
    (omp : Nat → List (List ((Nat × Nat) × Interf F)) → List ((Nat × Nat) × Interf F)) (locals : List (Nat × Box F)) :
    Nat → List (Shift F) → List ((Nat × Nat) × Interf F) → Option (Res (List ((Nat × Nat) × Interf F)))
  | _, [], m => some (.ok m)
  | i, sh :: shs, m =>
    match sendersAll (locals.map (senderHits s ids tf rho fuel sh)) with
    | none => none
    | some .throws => some .throws
    | some .ub => some .ub
    | some (.ok ls) => findInterfaces s ids tf rho fuel omp locals (i + 1) shs ((omp i ls).foldl mmEmplace m)

/-! ### Ghost layers -/

/-- The fields of a patch used here (`get_field<vec>(0)`, `get_field<flt>(ihpart)`) and the ghost layout `xyzh`, BasicSPHGhosts.hpp:297-315. -/
structure PartData (F : Type) where
  pos : PField (V3 F)
  h : PField F

/-- gen_id_table_interfaces, BasicSPHGhosts.cpp:512-579. `get_pdat` of an id that the rank does not hold throws. -/
def genIdTable [LinearOrder F] (data : List (Nat × PartData F)) : List ((Nat × Nat) × Interf F) → List ((Nat × Nat) × (Interf F × List Nat)) →
    Res (List ((Nat × Nat) × (Interf F × List Nat)))
  | [], res => .ok res
  | e :: es, res =>
    match mfind data e.1.1 with
    | none => .throws
    | some src =>
      (src.pos.idsWhere fun x => inPatchConverted x e.2.cut.lower e.2.cut.upper).bind fun idxs =>
      if idxs.length = 0 then genIdTable data es res else genIdTable data es (mmEmplace res (e.1, (e.2, idxs)))

/-- One entry of build_position_interf_field, BasicSPHGhosts.hpp:300-320 with build_interface_native 158-180; `apply_offset`,
PatchDataField.cpp:203-223, adds to every value. -/
def buildGhost [Add F] (garbage : Nat → V3 F) (garbageH : Nat → F) (order : Nat → List Nat) (data : List (Nat × PartData F))
    (e : (Nat × Nat) × (Interf F × List Nat)) : Res ((Nat × Nat) × PartData F) :=
  if e.2.2.length = 0 then .throws
  else match mfind data e.1.1 with
    | none => .throws
    | some src =>
      (src.pos.appendSubset garbage order e.2.2 e.2.2.length ⟨1, []⟩).bind fun p =>
      (src.h.appendSubset garbageH order e.2.2 e.2.2.length ⟨1, []⟩).bind fun h =>
      .ok (e.1, ⟨⟨p.nvar, p.buf.map fun x => x.addv e.2.1.off⟩, h⟩)

/-- build_position_interf_field, BasicSPHGhosts.hpp:293-321: entry by entry, in order (`DistributedDataShared::map`). -/
def buildGhosts [Add F] (garbage : Nat → V3 F) (garbageH : Nat → F) (order : Nat → Nat → List Nat) (data : List (Nat × PartData F)) :
    Nat → List ((Nat × Nat) × (Interf F × List Nat)) → Res (List ((Nat × Nat) × PartData F))
  | _, [] => .ok []
  | i, e :: es => (buildGhost garbage garbageH (order i) data e).bind fun g => (buildGhosts garbage garbageH order data (i + 1) es).bind fun gs => .ok (g :: gs)

/-- check_field_obj_cnt_match, PatchDataLayer.cpp: throws unless both fields have as many objects. -/
def PartData.checkMatch (p : PartData F) : Res Unit :=
  p.pos.objCnt.bind fun a => p.h.objCnt.bind fun b => if a = b then .ok () else .throws

/-- The loop over the interfaces for one patch, merge_native, BasicSPHGhosts.hpp:466-470 with the appender of merge_position_buf, 499-503. -/
def appendAll (id : Nat) : List ((Nat × Nat) × PartData F) → PartData F → Res (PartData F)
  | [], acc => .ok acc
  | e :: es, acc =>
    if e.1.2 = id then
      let acc' : PartData F := ⟨acc.pos.insert e.2.pos, acc.h.insert e.2.h⟩
      acc'.checkMatch.bind fun _ => appendAll id es acc'
    else appendAll id es acc

/-- merge_position_buf, BasicSPHGhosts.hpp:452-504, over the patches of the rank (`is_empty`: no object). -/
def mergePositions (recv : List ((Nat × Nat) × PartData F)) : List (Nat × PartData F) → Res (List (Nat × PartData F))
  | [] => .ok []
  | p :: ps =>
    p.2.pos.objCnt.bind fun n =>
    if p.1 = u64max ∨ n = 0 then mergePositions recv ps
    else
      let own : PartData F := ⟨(⟨1, []⟩ : PField (V3 F)).insert p.2.pos, (⟨1, []⟩ : PField F).insert p.2.h⟩
      own.checkMatch.bind fun _ => (appendAll p.1 recv own).bind fun m => (mergePositions recv ps).bind fun r => .ok ((p.1, m) :: r)

end
end Shamrock
