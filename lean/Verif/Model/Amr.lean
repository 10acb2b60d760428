import Verif.Model.Kernel
import Verif.Model.Patch
import Verif.Model.Morton
import Verif.Model.Bitonic
import Mathlib.Algebra.Field.Rat
import Mathlib.Algebra.Module.Prod
import Mathlib.Algebra.Module.Rat
import Mathlib.Algebra.Order.Field.Rat
/-! The refinement pass of the Ramses (Godunov AMR) solver on the blocks of one patch:
/repo/src/shammodels/ramses/src/modules/AMRGridRefinementHandler.cpp (`update_refinement_new`, :1415-2627) and
/repo/src/shamrock/include/shamrock/amr/AMRCell.hpp.

A block of the patch is one record: its integer bounds (fields 0 and 1 of the patch data) and the gas state of its eight cells (fields 2, 3, 4).
Arithmetic on gas states is exact (rational); levels are `u64` with wrap-around. Events, queues and logging are not modelled. -/
namespace Shamrock.Amr

/-- `AMRBlockCoord<i64_3, 3>`, AMRCell.hpp:26-31. The overflow of `i64` is not modelled. -/
structure Box where
  lo : V3 Int
  hi : V3 Int
deriving DecidableEq, Repr

/-- `get_split_coord`, AMRCell.hpp:33-35 (`/` truncates towards zero). -/
def splitPt (b : Box) : V3 Int :=
  ⟨(b.hi.x - b.lo.x).tdiv 2 + b.lo.x, (b.hi.y - b.lo.y).tdiv 2 + b.lo.y, (b.hi.z - b.lo.z).tdiv 2 + b.lo.z⟩

/-- `szs`, AMRCell.hpp:43. -/
def szs (b : Box) : Nat → V3 Int
  | 0 => b.lo
  | 1 => splitPt b
  | _ => b.hi

/-- The sub-block with coordinates `lx ly lz`, AMRCell.hpp:60-61. -/
def childBox (b : Box) (lx ly lz : Nat) : Box :=
  ⟨⟨(szs b lx).x, (szs b ly).y, (szs b lz).z⟩, ⟨(szs b (lx + 1)).x, (szs b (ly + 1)).y, (szs b (lz + 1)).z⟩⟩

/-- `get_coord` of AMRCell.hpp:45-55, AMRBlock.hpp:get_coord and `get_coord_ref` (AMRGridRefinementHandler.cpp:1656-1664): `x` fastest. -/
def coordX (i : Nat) : Nat × Nat × Nat := (i % 2, i / 2 % 2, i / 2 / 2)

/-- `get_coord` of the geometry kernel, AMRGridRefinementHandler.cpp:969-979: `z` fastest. -/
def coordZ (i : Nat) : Nat × Nat × Nat := (i / 2 / 2, i / 2 % 2, i % 2)

/-- `AMRBlock::get_index`, /repo/src/shammodels/common/include/shammodels/common/amr/AMRBlock.hpp:50-72, and `get_index_block`,
AMRGridRefinementHandler.cpp:1666-1673 (both with `Nside = 2`). -/
def getIndex (x y z : Nat) : Nat := x + 2 * y + 2 * 2 * z

/-- `AMRBlockCoord::get_split`, AMRCell.hpp:37-65: entry `i` of the result. -/
def splitX (b : Box) (i : Nat) : Box := childBox b (coordX i).1 (coordX i).2.1 (coordX i).2.2

/-- `get_split` of the geometry kernel, AMRGridRefinementHandler.cpp:981-997: entry `i` of the result. -/
def splitZ (b : Box) (i : Nat) : Box := childBox b (coordZ i).1 (coordZ i).2.1 (coordZ i).2.2

/-- `get_merge(c1, c2)`, AMRCell.hpp:69-71. -/
def merge2 (a b : Box) : Box :=
  ⟨⟨min a.lo.x b.lo.x, min a.lo.y b.lo.y, min a.lo.z b.lo.z⟩, ⟨max a.hi.x b.hi.x, max a.hi.y b.hi.y, max a.hi.z b.hi.z⟩⟩

/-- `get_merge(others)`, AMRCell.hpp:73-81. -/
def mergeAll (o : Nat → Box) : Box :=
  merge2 (merge2 (merge2 (o 0) (o 1)) (merge2 (o 2) (o 3))) (merge2 (merge2 (o 4) (o 5)) (merge2 (o 6) (o 7)))

/-- `are_mergeable`, AMRCell.hpp:83-103 (used by the old derefinement). -/
def areMergeable (o : Nat → Box) : Bool :=
  (List.range 8).all fun i => decide (o i = splitX (mergeAll o) i)

/-- The test of the geometry kernel, AMRGridRefinementHandler.cpp:1006-1011. -/
def geomOk (o : Nat → Box) : Bool :=
  (List.range 8).all fun i => decide (o i = splitZ (mergeAll o) i)

/-! ### Flags -/

/-- Addition and subtraction of `u64`. -/
def w64 (n : Nat) : Nat := n % 18446744073709551616

/-- `level - 1` in `u64`. -/
def u64dec (n : Nat) : Nat := w64 (n + 18446744073709551615)

/-- What the kernels read and do not write: the number of blocks of the patch, the levels of the blocks, the links of each block in the six
directions (`xp`, `xm`, `yp`, `ym`, `zp`, `zm` one after the other; indices from `n` on are ghost blocks), the bounds of the blocks. -/
structure Grid where
  n : Nat
  lv : Nat → Nat
  links : Nat → List Nat
  box : Nat → Box

/-- `gen_refine_block_changes_new`, AMRGridRefinementHandler.cpp:700-715, one item, with the size guard that ends every `refine_criterion_new`
(:1491-1493, :2049-2051, :2241-2243: a block is refined only if it is wider than `Nside = 2` in each direction); `crit` is the rest of the
criterion, any function of the block. -/
def critFlags (G : Grid) (crit : Nat → Bool × Bool) (i : Nat) : Nat × Nat :=
  let b := G.box i
  let r := (crit i).1 && decide (b.hi.x - b.lo.x > 2) && decide (b.hi.y - b.lo.y > 2) && decide (b.hi.z - b.lo.z > 2)
  let d := if r && (crit i).2 then false else (crit i).2
  (if r then 1 else 0, if d then 1 else 0)

/-- The test of `check_2To1_ref`, AMRGridRefinementHandler.cpp:818-824 (including `!neigh_ref_flag`). -/
def fires (G : Grid) (b nid cur nf : Nat) : Bool :=
  decide (cur ≠ 0) && decide (w64 (G.lv b + 1) > w64 (w64 (G.lv nid + if nf ≠ 0 then 1 else 0) + 1)) && decide (nf = 0)

/-- Reading the own flag, :803. The private state is (own flag, last neighbour flag). -/
def ownStep (b : Nat) : KStep (Nat × Nat) Nat := fun l m => (m[b]?).map fun v => ((v, l.2), m)

/-- Reading the flag of a neighbour, :811-815 (skipped for ghosts and when the own flag is unset, :805). -/
def neighStep (G : Grid) (nid : Nat) : KStep (Nat × Nat) Nat := fun l m =>
  if l.1 = 0 ∨ G.n ≤ nid then some (l, m) else (m[nid]?).map fun v => ((l.1, v), m)

/-- The atomic exchange on the neighbour flag, :825-830. -/
def setStep (G : Grid) (b nid : Nat) : KStep (Nat × Nat) Nat := fun l m =>
  if l.1 = 0 ∨ G.n ≤ nid then some (l, m)
  else if fires G b nid l.1 l.2 then (if nid < m.length then some (l, m.set nid 1) else none) else some (l, m)

/-- The atomic exchange on `changed`, :832-837; `changed` is the entry `n` of the modelled buffer. -/
def changeStep (G : Grid) (b nid : Nat) : KStep (Nat × Nat) Nat := fun l m =>
  if l.1 = 0 ∨ G.n ≤ nid then some (l, m)
  else if fires G b nid l.1 l.2 then (if G.n < m.length then some (l, m.set G.n 1) else none) else some (l, m)

/-- One item of the 2:1 refinement sweep, :800-848. -/
def refItem (G : Grid) (b : Nat) : List (KStep (Nat × Nat) Nat) :=
  ownStep b :: (G.links b).flatMap fun nid => [neighStep G nid, setStep G b nid, changeStep G b nid]

/-- One sweep: `changed = 0`, launch, read `changed`, :778-867. -/
def refSweep (G : Grid) (sched : List Nat) (fl : List Nat) : Option (List Nat × Nat) := do
  let m ← kLaunch G.n (refItem G) (0, 0) sched (fl ++ [0])
  let c ← m[G.n]?
  pure (m.take G.n, c)

/-- `for (pass < 100) … if (changed == 0) break`, :776-868; `sched p` schedules sweep `p`. The last component tells whether the loop left through
`break`. -/
def refLoop (G : Grid) (sched : Nat → List Nat) : Nat → Nat → List Nat → Option (List Nat × Bool)
  | 0, _, fl => some (fl, false)
  | k + 1, p, fl => do
    let (fl', c) ← refSweep G (sched p) fl
    if c = 0 then pure (fl', true) else refLoop G sched k (p + 1) fl'

/-- The decision of item `id` of the geometry kernel, :999-1016, from the eight flags it has read; `ref` are the refinement flags. -/
def wantMerge (G : Grid) (ref : List Nat) (id : Nat) (flags : List Nat) : Option Bool := do
  let r ← ref[id]?
  let doMerge := geomOk (fun k => G.box (id + k)) && flags.all (fun f => decide (f ≠ 0)) &&
    (List.range 8).all (fun k => decide (G.lv id = G.lv (id + k)))
  pure (if r ≠ 0 && doMerge then false else doMerge)

/-- Reading a flag, :1001 (`&&` does not read the later flags once one is unset; reading them has no effect). -/
def readFlag (k : Nat) : KStep (List Nat) Nat := fun l m => (m[k]?).map fun v => (l ++ [v], m)

/-- `acc_merge_flag[id] = do_merge`, :1021. -/
def writeFlag (G : Grid) (ref : List Nat) (id : Nat) : KStep (List Nat) Nat := fun l m =>
  if id < m.length then
    if id + 8 ≤ G.n then (wantMerge G ref id l).map fun b => (l, m.set id (if b then 1 else 0))
    else some (l, m.set id 0)
  else none

/-- One item of the geometry kernel, :957-1022. -/
def geomItem (G : Grid) (ref : List Nat) (id : Nat) : List (KStep (List Nat) Nat) :=
  (if id + 8 ≤ G.n then (List.range 8).map (fun k => readFlag (id + k)) else []) ++ [writeFlag G ref id]

/-- `neigh_future`, :1097-1098. -/
def neighFuture (G : Grid) (ref der : List Nat) (nid : Nat) : Option Nat := do
  let r ← ref[nid]?
  let d ← der[nid]?
  let f := w64 (G.lv nid + if r ≠ 0 then 1 else 0)
  pure (if d ≠ 0 then u64dec f else f)

/-- One call of `check_2To1_der`, :1092-1106. -/
def checkDer (G : Grid) (ref old : List Nat) (lid : Nat) (new nid : Nat) : Option Nat :=
  if nid < G.n then do
    let nf ← neighFuture G ref old nid
    pure (if nf > w64 (u64dec (G.lv lid) + 1) then 0 else new)
  else some new

/-- One item of the 2:1 derefinement sweep, :1086-1130: the new flag. -/
def derItem (G : Grid) (ref old : List Nat) (lid : Nat) : Option Nat := do
  let o ← old[lid]?
  if o ≠ 0 then ((List.range 8).flatMap fun i => G.links (lid + i)).foldlM (checkDer G ref old lid) o else pure o

/-- One sweep, :1085-1146 (the kernel reads `old` and writes `new`, so the order of the items is irrelevant), with `changed`. -/
def derSweep (G : Grid) (ref old : List Nat) : Option (List Nat × Bool) := do
  let new ← (List.range G.n).mapM (derItem G ref old)
  pure (new, (List.range G.n).any fun i => decide (old[i]? ≠ new[i]?))

/-- `for (it < 100) … if (changed == 0) break`, :1059-1154. -/
def derLoop (G : Grid) (ref : List Nat) : Nat → List Nat → Option (List Nat × Bool)
  | 0, fl => some (fl, false)
  | k + 1, fl => do
    let (fl', c) ← derSweep G ref fl
    if c then derLoop G ref k fl' else pure (fl', true)

/-- The flags of a pass, `update_refinement_new` :2579-2604: (refinement flags, derefinement flags). `s1 p` schedules sweep `p` of the refinement
loop, `s2` the geometry kernel. -/
def passFlags (G : Grid) (crit : Nat → Bool × Bool) (s1 : Nat → List Nat) (s2 : List Nat) : Option (List Nat × List Nat) := do
  let ref0 := (List.range G.n).map fun i => (critFlags G crit i).1
  let der0 := (List.range G.n).map fun i => (critFlags G crit i).2
  let (ref, _) ← refLoop G s1 100 0 ref0
  let der1 ← kLaunch G.n (geomItem G ref) [] s2 der0
  let (der, _) ← derLoop G ref 100 der1
  pure (ref, der)

/-- `stream_compact`: the flagged indices in increasing order (C15 proves it of the device algorithm). -/
def flagged (fl : List Nat) : List Nat := (List.range fl.length).filter fun i => decide (fl[i]? ≠ some 0)

/-! ### Blocks -/

/-- The conserved gas state of a cell: density, momentum density, energy density. -/
abbrev Cons := ℚ × (ℚ × ℚ × ℚ) × ℚ

/-- A block of the patch: bounds and the states of its eight cells. -/
structure Blk where
  box : Box
  cell : Fin 8 → Cons

/-- `rho > 0 && e_int > 0`, AMRGridRefinementHandler.cpp:1755-1760. -/
def physical (c : Cons) : Bool :=
  decide (c.1 > 0) && decide (c.2.2 - 1 / 2 * (c.2.1.1 * c.2.1.1 + c.2.1.2.1 * c.2.1.2.1 + c.2.1.2.2 * c.2.1.2.2) / c.1 > 0)

/-- `child_center_offsets`, :1703-1711. -/
def childOffset (h : ℚ) : Nat → ℚ × ℚ × ℚ
  | 0 => (-h, -h, -h)
  | 1 => (h, -h, -h)
  | 2 => (-h, h, -h)
  | 3 => (h, h, -h)
  | 4 => (-h, -h, h)
  | 5 => (h, -h, h)
  | 6 => (-h, h, h)
  | _ => (h, h, h)

/-- What `apply_refine_new` reads and does not write: the snapshot of the states (by cell index), the slopes of the snapshot (`get_3d_grad_cons`,
:1713-1731, any function of the cell), the cell size of the block, the interpolation mode. -/
structure Interp where
  snap : Nat → Cons
  slope : Nat → Cons × Cons × Cons
  size : Nat → ℚ
  second : Bool

/-- The interpolated state of sub-cell `s` of old cell `i` of block `b`, :1743-1753. -/
def interpState (I : Interp) (b i s : Nat) : Cons :=
  let o := childOffset (I.size b * (1 / 4)) s
  let mul : ℚ := if I.second then 1 else 0
  I.snap i + mul • (o.1 • (I.slope i).1 + o.2.1 • (I.slope i).2.1 + o.2.2 • (I.slope i).2.2)

/-- The value written, :1740-1777. -/
def refinedState (I : Interp) (b i s : Nat) : Cons :=
  if (List.range 8).all (fun s => physical (interpState I b i s)) then interpState I b i s else I.snap i

/-- The private state of an item of the refinement kernel: the bounds read. -/
abbrev BoxLoc := Box

/-- Its value before the first read. -/
def box0 : Box := ⟨⟨0, 0, 0⟩, ⟨0, 0, 0⟩⟩

/-- Read the bounds, :1224-1225. -/
def readBox (i : Nat) : KStep BoxLoc Blk := fun _ m => (m[i]?).map fun b => (b.box, m)

/-- Write the bounds of new block `pid`, :1244-1247. -/
def writeBox (i pid : Nat) : KStep BoxLoc Blk := fun b m => (m[i]?).map fun o => (b, m.set i { o with box := splitX b pid })

/-- Write the state of one cell, :1771-1777; `idx` is the global cell index. -/
def writeCell {L : Type} (idx : Nat) (v : Cons) : KStep L Blk := fun l m => (m[idx / 8]?).map fun o =>
  (l, m.set (idx / 8) { o with cell := fun k => if k.val = idx % 8 then v else o.cell k })

/-- `blocks_ids`, :1231-1239. -/
def newIds (old tid idx pid : Nat) : Nat := if pid = 0 then idx else old + tid * 7 + (pid - 1)

/-- `get_gid_write`, :1675-1693. -/
def gidWrite (ids : Nat → Nat) (gx gy gz : Nat) : Nat :=
  ids (getIndex (gx / 2) (gy / 2) (gz / 2)) * 8 + getIndex (gx % 2) (gy % 2) (gz % 2)

/-- One item of the refinement kernel, :1217-1252, with `apply_refine_new`, :1649-1780. -/
def refineItem (I : Interp) (old : Nat) (todo : List Nat) (tid : Nat) : List (KStep BoxLoc Blk) :=
  match todo[tid]? with
  | none => []
  | some idx =>
    [readBox idx] ++ (List.range 8).map (fun pid => writeBox (newIds old tid idx pid) pid) ++
      (List.range 8).flatMap fun l => (List.range 8).map fun s =>
        writeCell (gidWrite (newIds old tid idx) ((coordX l).1 * 2 + (coordX s).1) ((coordX l).2.1 * 2 + (coordX s).2.1)
          ((coordX l).2.2 * 2 + (coordX s).2.2)) (refinedState I idx (idx * 8 + l) s)

/-- `internal_refine_grid_new` on one patch, :1190-1266. `junk` is the content of the blocks added by `expand`. -/
def refineGrid (I : Interp) (junk : Nat → Blk) (sched : List Nat) (ref : List Nat) (bs : List Blk) : Option (List Blk) :=
  let todo := flagged ref
  if 0 < todo.length then
    kLaunch todo.length (refineItem I bs.length todo) box0 sched (bs ++ (List.range (todo.length * 7)).map junk)
  else some bs

/-- The private state of an item of the derefinement kernel: the bounds read and the states read. -/
structure MergeLoc where
  boxes : List Box
  cells : List Cons

/-- Read the bounds of one block of the octet, :1326-1330. -/
def readBoxes (i : Nat) : KStep MergeLoc (Blk × Nat) := fun l m => (m[i]?).map fun b => ({ l with boxes := l.boxes ++ [b.1.box] }, m)

/-- `block_bound_low/high[idx_to_derefine] = merged`, :1333-1337. -/
def writeMerged (i : Nat) : KStep MergeLoc (Blk × Nat) := fun l m => (m[i]?).map fun o => (l, m.set i ({ o.1 with box := mergeAll fun k => (l.boxes[k]?).getD box0 }, o.2))

/-- `flag_keep[idx_to_derefine + pid] = 0`, :1341-1343. -/
def dropKeep (i : Nat) : KStep MergeLoc (Blk × Nat) := fun l m => (m[i]?).map fun o => (l, m.set i (o.1, 0))

/-- Read the state of one cell, :1807-1809; `i` is the global cell index. -/
def readCell (i : Nat) : KStep MergeLoc (Blk × Nat) := fun l m => (m[i / 8]?).map fun b => ({ l with cells := l.cells ++ [b.1.cell ⟨i % 8, Nat.mod_lt _ (by decide)⟩] }, m)

/-- `rho_block[pid]`, :1801-1814: the mean of the eight cells of block `pid` of the octet. -/
def restricted (cells : List Cons) (pid : Nat) : Cons := (1 / 8 : ℚ) • ((cells.drop (8 * pid)).take 8).foldl (· + ·) 0

/-- `acc.rho[newcell_idx] = rho_block[cell_id]`, :1816-1821. -/
def writeRestricted (i cell : Nat) : KStep MergeLoc (Blk × Nat) := fun l m => (m[i]?).map fun o => (l, m.set i ({ o.1 with cell := fun k => if k.val = cell then restricted l.cells cell else o.1.cell k }, o.2))

/-- One item of the derefinement kernel, :1310-1349, with `apply_derefine_new`, :1782-1822. -/
def derefineItem (todo : List Nat) (tid : Nat) : List (KStep MergeLoc (Blk × Nat)) :=
  match todo[tid]? with
  | none => []
  | some idx =>
    (List.range 8).map (fun pid => readBoxes (idx + pid)) ++ [writeMerged idx] ++
      (List.range 7).map (fun k => dropKeep (idx + (k + 1))) ++
      (List.range 64).map (fun k => readCell ((idx + k / 8) * 8 + k % 8)) ++
      (List.range 8).map (fun c => writeRestricted idx c)

/-- `internal_derefine_grid_new` on one patch, :1287-1383; the removal is `stream_compact` of the keep flags then `index_remap_resize`. -/
def derefineGrid (sched : List Nat) (der : List Nat) (bs : List Blk) : Option (List Blk) :=
  let todo := flagged der
  if 0 < todo.length then do
    let m ← kLaunch todo.length (derefineItem todo) ⟨[], []⟩ sched (bs.map fun b => (b, 1))
    pure ((m.filter fun p => decide (p.2 ≠ 0)).map (·.1))
  else some bs

/-- The schedules of one pass. -/
structure PassSched where
  sweeps : Nat → List Nat
  geom : List Nat
  refine : List Nat
  derefine : List Nat

/-- The refinement pass on the blocks of one patch, up to the final sort, `update_refinement_new` :2579-2617: whether a block was refined or merged, and
the blocks. -/
def amrPass (G : Grid) (I : Interp) (crit : Nat → Bool × Bool) (junk : Nat → Blk) (S : PassSched) (bs : List Blk) : Option (Bool × List Blk) := do
  let (ref, der) ← passFlags G crit S.sweeps S.geom
  let bs1 ← refineGrid I junk S.refine ref bs
  let bs2 ← derefineGrid S.derefine der bs1
  pure (decide (0 < (flagged ref).length ∨ 0 < (flagged der).length), bs2)

/-! ### Sorting the blocks -/

/-- One axis of `to_morton_grid(pos, transform)` for `i64` positions and `u64` codes: the constructor
/repo/src/shammath/src/CoordRangeTransform.cpp:432-464 (`none` when it throws), `reverse_transform` (CoordRangeTransform.hpp:112-121, the conversion
to `u32` wraps) and the clamps of /repo/src/shammath/include/shammath/sfc/morton.hpp:213-224. -/
def axisGrid (lo hi p : Int) : Option Nat :=
  let d := hi - lo
  if d ≤ 0 then none
  else if 2097152 ≤ d then
    if d % 2097152 = 0 then some (min (((p - lo).tdiv (d.tdiv 2097152)) % 4294967296).toNat 2097151) else none
  else if 2097152 % d = 0 then some (min (((p - lo) * ((2097152 : Int).tdiv d)) % 4294967296).toNat 2097151) else none

/-- The code of a block whose low corner is `p`, in the patch `b`: `sycl_xyz_to_morton`, /repo/src/shamtree/src/MortonKernels.cpp:110-140. -/
def blockCode (b : Box) (p : V3 Int) : Option Nat :=
  let cmp (lo hi : Int) : Bool := decide (2097152 ≤ hi - lo)
  if cmp b.lo.x b.hi.x = cmp b.lo.y b.hi.y ∧ cmp b.lo.z b.hi.z = cmp b.lo.y b.hi.y then do
    let x ← axisGrid b.lo.x b.hi.x p.x
    let y ← axisGrid b.lo.y b.hi.y p.y
    let z ← axisGrid b.lo.z b.hi.z p.z
    pure (morton64 ⟨BitVec.ofNat 64 x, BitVec.ofNat 64 y, BitVec.ofNat 64 z⟩).toNat
  else none

/-- `reorder_amr_blocks` on one non-empty patch, /repo/src/shammodels/ramses/src/modules/AMRSortBlocks.cpp:20-47, with `RadixTreeMortonBuilder::build`,
/repo/src/shamtree/src/RadixTreeMortonBuilder.cpp:66-103: codes of the low corners, padding with the largest code, bitonic sort of (code, index) (the
network of C10), gather of every field with the first entries of the index map. `none` = exception or undefined behaviour. -/
def sortBlocks (patch : Box) (sched : Nat → Nat → List Nat) (bs : List Blk) : Option (List Blk) :=
  if bs.length = 0 then some bs
  else if 2147483646 < bs.length then none
  else do
    let codes ← bs.mapM fun b => blockCode patch b.box.lo
    let cnt := roundupPow2U32 (BitVec.ofNat 32 bs.length)
    match sortByKeyBitonic 16 cnt sched ((codes ++ List.replicate (cnt.toNat - bs.length) 18446744073709551615).zipIdx) with
    | some (.ok out) => ((out.take bs.length).map (·.2)).mapM fun i => bs[i]?
    | _ => none

/-- The refinement pass on the blocks of one patch, `update_refinement_new` :2579-2626, with the final sort, done when a block of this patch or of
another patch (`others`) changed. -/
def amrStep (G : Grid) (I : Interp) (crit : Nat → Bool × Bool) (junk : Nat → Blk) (S : PassSched) (patch : Box) (sortSched : Nat → Nat → List Nat)
    (others : Bool) (bs : List Blk) : Option (List Blk) := do
  let (changed, bs2) ← amrPass G I crit junk S bs
  if changed || others then sortBlocks patch sortSched bs2 else pure bs2

/-- The states of the blocks by global cell index. -/
def snapOf (bs : List Blk) (j : Nat) : Cons :=
  match bs[j / 8]? with
  | some b => b.cell ⟨j % 8, Nat.mod_lt _ (by decide)⟩
  | none => 0

/-- The end of a solver step, /repo/src/shammodels/ramses/src/Solver.cpp:1624-1672: `before` are the blocks at the start of the step; the time integration
gives `after` (new states, same blocks), but the fields copied into the snapshot (`refs_rho`, :877-890, :1656-1665) are those of `merged_patchdata_ghost`,
copied from the patches at the start of the step (:779). -/
def solverRefine (G : Grid) (I : Interp) (crit : Nat → Bool × Bool) (junk : Nat → Blk) (S : PassSched) (patch : Box) (sortSched : Nat → Nat → List Nat)
    (others : Bool) (before after : List Blk) : Option (List Blk) :=
  amrStep G { I with snap := snapOf before } crit junk S patch sortSched others after

end Shamrock.Amr
