import Verif.Model.Kernel
import Verif.Model.Integer
/-! Bitonic key/value sort, /repo/src/shamalgs/src/details/algorithm/bitonicSort_updated_usm.cpp.

The key buffer `m` and the value buffer `id` are always accessed at the same addresses; the model keeps one buffer of
(key, value) pairs. Keys are `u32`/`u64` in every instantiation, modelled by naturals. All indices stay below
`len ≤ 2^31`, so `u32`/`int` arithmetic does not wrap and naturals are used; out of bounds accesses are `none`. -/
namespace Shamrock

/-- `OrderingPrimitive::_orderV`, bitonicSort_updated_usm.cpp:41-52 (and `_order`, 29-39, on registers): compare and exchange
elements `a` and `b` of a private array. -/
def orderV {V : Type} (a b : Nat) (reverse : Bool) (x : List (Nat × V)) : Option (List (Nat × V)) := do
  let auxa ← x[a]?
  let auxb ← x[b]?
  let swap := reverse ^^ decide (auxa.1 < auxb.1)
  let x1 ← wr x a (if swap then auxb else auxa)
  wr x1 b (if swap then auxa else auxb)

/-- The unrolled loop of `order_stencil<2^(s+1)>`: `for i < n : _orderV(x, vx, a + i, a + i + h)`. -/
def orderLoop {V : Type} (h a : Nat) (reverse : Bool) : Nat → Nat → List (Nat × V) → Option (List (Nat × V))
  | 0, _, x => some x
  | n + 1, i, x => do
    let x1 ← orderV (a + i) (a + i + h) reverse x
    orderLoop h a reverse n (i + 1) x1

/-- `order_stencil<2^s>`, bitonicSort_updated_usm.cpp:54-105 (`order_stencil<2>` is a single `_orderV`). -/
def orderStencil {V : Type} : Nat → Nat → Bool → List (Nat × V) → Option (List (Nat × V))
  | 0, _, _, x => some x
  | s + 1, a, reverse, x => do
    let x1 ← orderLoop (2 ^ s) a reverse (2 ^ s) 0 x
    let x2 ← orderStencil s a reverse x1
    orderStencil s (a + 2 ^ s) reverse x2

/-- `x[k] = m[addr]` (load step of `order_kernel`; `k` is the number of values loaded so far). -/
def loadStep {V : Type} (addr : Nat) : KStep (List (Nat × V)) (Nat × V) := fun x m => do
  let v ← m[addr]?
  pure (x ++ [v], m)

/-- `m[addr] = x[k]` (store step of `order_kernel`). -/
def storeStep {V : Type} (addr k : Nat) : KStep (List (Nat × V)) (Nat × V) := fun x m => do
  let v ← x[k]?
  let m' ← wr m addr v
  pure (x, m')

/-- The private sort of `order_kernel`. -/
def sortStep {V : Type} (s : Nat) (reverse : Bool) : KStep (List (Nat × V)) (Nat × V) := fun x m => do
  let x' ← orderStencil s 0 reverse x
  pure (x', m)

/-- `_inc` of `order_kernel<2^s>`: `_inc >>= s - 1`. -/
def okInc (s inc : Nat) : Nat := inc >>> (s - 1)

/-- `i` of `order_kernel<2^s>`: `low = t & (_inc - 1); i = ((t - low) << s) + low`. -/
def okBase (s inc t : Nat) : Nat :=
  let low := t &&& (okInc s inc - 1)
  ((t - low) <<< s) + low

/-- `reverse = ((_dir & i) == 0)` with `_dir = length << 1`. -/
def okReverse (s inc length t : Nat) : Bool := ((length <<< 1) &&& okBase s inc t) == 0

/-- `order_kernel<2^s>` for work item `t`, bitonicSort_updated_usm.cpp:111-281 (s = 5, 4, 3, 2, 1): load, sort, store. -/
def orderKernel (V : Type) (s inc length t : Nat) : List (KStep (List (Nat × V)) (Nat × V)) :=
  (List.range (2 ^ s)).map (fun k => loadStep (k * okInc s inc + okBase s inc t)) ++
  sortStep s (okReverse s inc length t) ::
  (List.range (2 ^ s)).map (fun k => storeStep (k * okInc s inc + okBase s inc t) k)

/-- The choice of the kernel (`ninc`), bitonicSort_updated_usm.cpp:301-390. -/
def chooseNinc (maxStencil inc : Nat) : Nat :=
  if 32 ≤ maxStencil ∧ 16 ≤ inc then 5
  else if 16 ≤ maxStencil ∧ 8 ≤ inc then 4
  else if 8 ≤ maxStencil ∧ 4 ≤ inc then 3
  else if 4 ≤ maxStencil ∧ 2 ≤ inc then 2
  else 1

/-- The loop `while (inc > 0)`, bitonicSort_updated_usm.cpp:299-393 (`fuel` bounds the iterations; `inc` iterations suffice
as `inc` decreases). `sch inc` is the schedule of the launch made at this `inc`. -/
def bitonicInner {V : Type} (maxStencil len length : Nat) (sch : Nat → List Nat) :
    Nat → Nat → List (Nat × V) → Option (List (Nat × V))
  | 0, inc, m => if 0 < inc then none else some m
  | fuel + 1, inc, m =>
    if 0 < inc then do
      let m' ← kLaunch (len >>> chooseNinc maxStencil inc) (orderKernel V (chooseNinc maxStencil inc) inc length) []
        (sch inc) m
      bitonicInner maxStencil len length sch fuel (inc >>> chooseNinc maxStencil inc) m'
    else some m

/-- The loop `for (length = 1; length < len; length <<= 1)`, bitonicSort_updated_usm.cpp:297-394. -/
def bitonicOuter {V : Type} (maxStencil len : Nat) (sch : Nat → Nat → List Nat) :
    Nat → Nat → List (Nat × V) → Option (List (Nat × V))
  | 0, length, m => if length < len then none else some m
  | fuel + 1, length, m =>
    if length < len then do
      let m' ← bitonicInner maxStencil len length (sch length) length length m
      bitonicOuter maxStencil len sch fuel ((length <<< 1) % 2 ^ 32) m'
    else some m

/-- `sort_by_key_bitonic_updated_usm<Tkey, Tval, MaxStencilSize>`, bitonicSort_updated_usm.cpp:283-396. `sch length inc` is the
schedule of the work items in the launch for loop variables `length`, `inc`. The fuel 32 of the outer loop is the number of
bits of `length` (more iterations are reported as `none`). -/
def sortByKeyBitonic {V : Type} (maxStencil : Nat) (len : BitVec 32) (sch : Nat → Nat → List Nat) (m : List (Nat × V)) :
    Option (Outcome (List (Nat × V))) :=
  if isPowOfTwo len then (bitonicOuter maxStencil len.toNat sch 32 1 m).map .ok
  else some .throws

end Shamrock
