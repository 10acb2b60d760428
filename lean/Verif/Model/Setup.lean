import Verif.Model.Collective
/-! Generation of the initial particles: /repo/src/shammath/include/shammath/DiscontinuousIterator.hpp, the iterators of
/repo/src/shammath/include/shammath/crystalLattice.hpp, the setup nodes of /repo/src/shammodels/sph/include/shammodels/sph/modules/setup/ and the generation
loops of /repo/src/shammodels/sph/src/modules/SPHSetup.cpp. A particle is a value of an arbitrary type `X` (all its fields).
Not modelled: `ModifierSplitPart`. -/
namespace Shamrock.Setup

/-! ### DiscontinuousIterator<i32> -/

/-- The fields of `DiscontinuousIterator<i32>`, DiscontinuousIterator.hpp:51-57. `bits` are the bits `firstbit, …, 1, 0` of `current`, in that order (the
bits above `firstbit` are never touched and are 0). -/
structure DIt where
  offset : Int
  tmax : Nat
  bits : List Bool
  done : Bool
deriving DecidableEq

/-- `current.to_ullong()`, DiscontinuousIterator.hpp:79,98: the first element is the most significant bit. -/
def bitVal : List Bool → Nat
  | [] => 0
  | b :: l => (if b then 2 ^ l.length else 0) + bitVal l

/-- The search of the constructor, DiscontinuousIterator.hpp:64-68: `firstbit + 1`, scanning down from bit `b - 1`. -/
def topBit (n : Nat) : Nat → Nat
  | 0 => 0
  | b + 1 => if n.testBit b then b + 1 else topBit n b

/-- The constructor, DiscontinuousIterator.hpp:59-69; `tmax - tmin` is an i32 subtraction (undefined when it overflows). -/
def DIt.mk' (tmin tmax : Int) : Option DIt :=
  if tmax - tmin < -(2 ^ 31) ∨ 2 ^ 31 ≤ tmax - tmin then none
  else
    let n := ((tmax - tmin) % 2 ^ 32).toNat
    some ⟨tmin, n, List.replicate (topBit n 32) false, decide ¬ tmin < tmax⟩

/-- The carry loop, DiscontinuousIterator.hpp:84-97: the bits from `pointer` down, and the new `done`. -/
def carryInc : List Bool → List Bool × Bool
  | [] => ([], true)
  | true :: l => (false :: (carryInc l).1, (carryInc l).2)
  | false :: l => (true :: l, false)

/-- The `do … while` of `advance_it`, DiscontinuousIterator.hpp:83-98. -/
def DIt.advLoop : Nat → DIt → Option DIt
  | 0, _ => none
  | f + 1, it =>
    let c := carryInc it.bits
    let it' : DIt := { it with bits := c.1, done := it.done || c.2 }
    if it.tmax ≤ bitVal c.1 then DIt.advLoop f it' else some it'

/-- `advance_it`, DiscontinuousIterator.hpp:81-100. -/
def DIt.advance (fuel : Nat) (it : DIt) : Option DIt := if it.done then some it else it.advLoop fuel

/-- `get`, DiscontinuousIterator.hpp:79. -/
def DIt.get (it : DIt) : Int := (bitVal it.bits : Int) + it.offset

/-- `while (!it.is_done()) push_back(it.next())`, crystalLattice.hpp:321-326 and 478-483. -/
def DIt.collect : Nat → DIt → Option (List Int)
  | 0, _ => none
  | f + 1, it => if it.done then some [] else (it.advance f).bind fun it' => (DIt.collect f it').map fun l => it.get :: l

/-! ### Lattice iterators -/

/-- How a position along one axis becomes a lattice coordinate: `coord_min + i32(…)` (crystalLattice.hpp:244-248) or `remapped_indices[ax][…]`
(crystalLattice.hpp:345-347). -/
inductive Axis where
  | cont (cmin : Int)
  | disc (l : List Int)

def Axis.get : Axis → Nat → Option Int
  | .cont m, i => some (m + i)
  | .disc l, i => l[i]?

/-- The iterators of the lattices: fields crystalLattice.hpp:206-213, 293-303 and 450-460. `pt` is `generator(dr, ·)`, followed by whatever makes a
particle of the position (GeneratorLatticeHCP.hpp:90-108). -/
structure LIt (X : Type) where
  pt : Int → Int → Int → X
  a0 : Axis
  a1 : Axis
  a2 : Axis
  d0 : Nat
  d1 : Nat
  d2 : Nat
  idx : Nat
  max : Nat
  done : Bool

/-- `size_t(coord_max[ax] - coord_min[ax])`, crystalLattice.hpp:219-223. -/
def axDelta (a b : Int) : Nat := ((b - a) % 2 ^ 64).toNat

/-- The constructors, crystalLattice.hpp:216-234 (`cont`), 304-327 and 461-484 (`disc`). `mkAxis` is the part that differs. -/
def LIt.mk' {X : Type} (mkAxis : Int → Int → Option Axis) (pt : Int → Int → Int → X) (cmin cmax : Int × Int × Int) : Option (LIt X) := do
  let a0 ← mkAxis cmin.1 cmax.1
  let a1 ← mkAxis cmin.2.1 cmax.2.1
  let a2 ← mkAxis cmin.2.2 cmax.2.2
  let d0 := axDelta cmin.1 cmax.1
  let d1 := axDelta cmin.2.1 cmax.2.1
  let d2 := axDelta cmin.2.2 cmax.2.2
  some ⟨pt, a0, a1, a2, d0, d1, d2, 0, d0 * d1 * d2 % 2 ^ 64, decide (cmin.1 = cmax.1) || decide (cmin.2.1 = cmax.2.1) || decide (cmin.2.2 = cmax.2.2)⟩

/-- The axis of `Iterator`. -/
def contAxis (a _b : Int) : Option Axis := some (.cont a)

/-- The axis of `IteratorDiscontinuous`. -/
def discAxis (fuel : Nat) (a b : Int) : Option Axis := (DIt.mk' a b).bind fun it => (it.collect fuel).map .disc

/-- `next`, crystalLattice.hpp:238-264, 331-360, 488-517. A division by zero is undefined. -/
def LIt.next {X : Type} (g : LIt X) : Option (X × LIt X) :=
  if g.d0 = 0 ∨ g.d1 = 0 ∨ g.d0 * g.d1 % 2 ^ 64 = 0 then none
  else do
    let i ← g.a0.get (g.idx % g.d0)
    let j ← g.a1.get (g.idx / g.d0 % g.d1)
    let k ← g.a2.get (g.idx / (g.d0 * g.d1 % 2 ^ 64))
    let idx := if g.done then g.idx else u64add g.idx 1
    some (g.pt i j k, { g with idx := idx, done := g.done || decide (g.max ≤ idx) })

/-- `next_n`, crystalLattice.hpp:266-276, 362-372, 519-529. -/
def LIt.nextN {X : Type} : Nat → LIt X → Option (List X × LIt X)
  | 0, g => some ([], g)
  | n + 1, g => if g.done then some ([], g) else g.next.bind fun p => (LIt.nextN n p.2).map fun q => (p.1 :: q.1, q.2)

/-- `skip`, crystalLattice.hpp:278-286, 374-382, 531-539. -/
def LIt.skip {X : Type} (g : LIt X) (n : Nat) : LIt X :=
  let idx := if g.done then g.idx else u64add g.idx n
  { g with idx := idx, done := g.done || decide (g.max ≤ idx) }

/-- The generation part of `next_n` of the lattice nodes on rank `r`, GeneratorLatticeHCP.hpp:66-96 (GeneratorLatticeCubic.hpp is the same text).
`keep` is `is_in_patch_converted(r, box.lower, box.upper)`. -/
def latNext {X : Type} (keep : X → Bool) (reqs : List Nat) (r : Nat) (g : LIt X) : Option (List X × LIt X) :=
  let v := reqs.getD r 0
  let t := fetchView reqs r
  let skipEnd := u64sub (u64sub t.1 v) t.2
  ((g.skip t.2).nextN v).map fun p => (p.1.filter keep, p.2.skip skipEnd)

/-! ### Setup nodes -/

/-- The setup nodes (`ISPHSetupNode`) with their state on every rank. `E` is the state of the random engine.
`lat`: GeneratorLatticeHCP / GeneratorLatticeCubic. `rnd`: GeneratorMCDisc (`f` makes the particle from its seed; GeneratorMCDisc.cpp:25-68,
GeneratorMCDisc.hpp:163-172). `ctx`: GeneratorFromOtherContext (the objects of each local patch, per rank). `filt`: ModifierFilter.
`upd`: ModifierOffset, ModifierApplyDiscWarp, ModifierApplyCustomWarp. `add`: CombinerAdd. -/
inductive Node (X E : Type) where
  | lat (its : List (LIt X)) (keep : X → Bool)
  | rnd (gens : List (IPG E)) (f : Nat → X)
  | ctx (data : List (List (Nat × List X)))
  | filt (p : X → Bool) (n : Node X E)
  | upd (f : X → X) (n : Node X E)
  | add (n1 n2 : Node X E)

/-- `is_done` on every rank: GeneratorLatticeHCP.hpp:61, GeneratorMCDisc.cpp:70-73 with GeneratorMCDisc.hpp:159-161, GeneratorFromOtherContext.hpp:46-54,
ModifierFilter.hpp, ModifierOffset.hpp (of the parent), CombinerAdd.hpp:46. -/
def Node.isDone {X E : Type} : Node X E → List Bool
  | .lat its _ => its.map (·.done)
  | .rnd gens _ => gens.map (·.done)
  | .ctx data => data.map fun d => d.all fun kv => kv.2.isEmpty
  | .filt _ n => n.isDone
  | .upd _ n => n.isDone
  | .add n1 n2 => List.zipWith (· && ·) n1.isDone n2.isDone

/-- Do all ranks report the same flag `b`? -/
def allEq (b : Bool) (l : List Bool) : Bool := l.all fun x => x == b

/-- The body of `next_n` of GeneratorFromOtherContext over the local patches, GeneratorFromOtherContext.hpp:66-86: what is appended to `tmp`, and what stays.
(`extract_elements` back-fills the holes from the end; here what stays keeps its order.) -/
def ctxTake {X : Type} (nmax : Nat) : List (Nat × List X) → List X → List X × List (Nat × List X)
  | [], tmp => (tmp, [])
  | (id, l) :: ps, tmp =>
    if ¬ l.isEmpty ∧ tmp.length < nmax then
      let k := min (nmax - tmp.length) l.length
      let q := ctxTake nmax ps (tmp ++ l.take k)
      (q.1, (id, l.drop k) :: q.2)
    else
      let q := ctxTake nmax ps tmp
      (q.1, (id, l) :: q.2)

/-- `next_n(nmax)` on every rank (`reqs[r]` is the `nmax` of rank `r`), concurrently. `none`: undefined behaviour, or some ranks enter the collective
`fetch_view` and others do not. GeneratorLatticeHCP.hpp:63-113, GeneratorMCDisc.cpp:75-90 with InvariantParallelGenerator.hpp:65-91,
GeneratorFromOtherContext.hpp:56-88, ModifierFilter.cpp:30-66, ModifierOffset.cpp:22-52, CombinerAdd.hpp:48-58. -/
def Node.nextN {X E : Type} (eng : E → E × Nat) : Node X E → List Nat → Option (List (List X) × Node X E)
  | .lat its keep, reqs =>
    if allEq true (its.map (·.done)) then some (its.map fun _ => [], .lat its keep)
    else if allEq false (its.map (·.done)) then
      (its.zipIdx.mapM fun (p : LIt X × Nat) => latNext keep reqs p.2 p.1).map fun (res : List (List X × LIt X)) => (res.map (·.1), .lat (res.map (·.2)) keep)
    else none
  | .rnd gens f, reqs =>
    if allEq true (gens.map (·.done)) then some (gens.map fun _ => [], .rnd gens f)
    else if allEq false (gens.map (·.done)) then
      let res := gens.zipIdx.map fun (g, r) => g.nextPar eng reqs r
      some (res.map fun p => p.1.map f, .rnd (res.map (·.2)) f)
    else none
  | .ctx data, reqs =>
    let res := data.zipIdx.map fun (d, r) => ctxTake (reqs.getD r 0) d []
    some (res.map (·.1), .ctx (res.map (·.2)))
  | .filt p n, reqs => (n.nextN eng reqs).map fun q => (q.1.map fun l => l.filter p, .filt p q.2)
  | .upd f n, reqs => (n.nextN eng reqs).map fun q => (q.1.map fun l => l.map f, .upd f q.2)
  | .add n1 n2, reqs =>
    let cnt1 := List.zipWith (fun (d : Bool) nmax => if d then 0 else nmax / 2) n1.isDone reqs
    let cnt2 := List.zipWith (fun nmax c => nmax - c) reqs cnt1
    (n1.nextN eng cnt1).bind fun q1 => (n2.nextN eng cnt2).map fun q2 => (List.zipWith (· ++ ·) q1.1 q2.1, .add q1.2 q2.2)

/-! ### apply_setup -/

/-- The tracking ids, SPHSetup.cpp:147-190 and 461-500: rank `r` gives its objects the ids `offset_init + i` where `offset_init` is the `Exscan` of the counts
(0 on rank 0) plus `injected_parts` (u64). -/
def giveIds {X : Type} (inj : Nat) (outs : List (List X)) : List (List (Nat × X)) :=
  outs.zipIdx.map fun (l, r) => l.zipIdx.map fun (x, i) => (u64add i (u64add (accU64 ((outs.map List.length).take r)) inj), x)

/-- `pdat_ob_cnt < split_threshold` fails, DataInserterUtility.hpp:127 (nothing is pushed in the generation loop of `apply_setup_new`: no threshold). -/
def tooMany {X : Type} (thr : Option Nat) (l : List X) : Bool := match thr with
  | some t => decide (¬ l.length < t)
  | none => false

/-- The generation loop. SPHSetup.cpp:143-196 (`apply_setup`; `push_patch_data` throws on a rank whose count is not below `thr`) and 458-535
(`apply_setup_new`, nothing is pushed: `thr = none`). `reqs i` are the requests of iteration `i`: `has_pdat() ? insert_step : 0` or `gen_step`. Result: what
every iteration pushed on every rank, with the ids, and the final `injected_parts`. No fuel: the loop goes on. A rank that leaves the loop while another
goes on leaves that one alone in the next collective (`ub`). -/
def setupLoop {X E : Type} (eng : E → E × Nat) (thr : Option Nat) (reqs : Nat → List Nat) : Nat → Nat → Node X E → Nat → Option (Res (List (List (List (Nat × X))) × Nat))
  | 0, _, _, _ => none
  | fuel + 1, it, n, inj =>
    if allEq true n.isDone then some (.ok ([], inj))
    else if allEq false n.isDone then
      match n.nextN eng (reqs it) with
      | none => some .ub
      | some (outs, n') =>
        if outs.any (tooMany thr) then some .throws
        else
          match setupLoop eng thr reqs fuel (it + 1) n' (u64add inj (accU64 (outs.map List.length))) with
          | none => none
          | some (.ok (rest, inj')) => some (.ok (giveIds inj outs :: rest, inj'))
          | some .throws => some .throws
          | some .ub => some .ub
    else some .ub

end Shamrock.Setup
