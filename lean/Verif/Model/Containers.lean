/-! Model of the small containers of `shambase` and of the atomic id generators.

`std::map` / `std::multimap` / `std::set` are modelled by the list of their elements in iteration order (increasing keys), with
the C++17 meaning of `emplace`, `find`, `erase`, `extract` and `insert(node)`. Keys of type `u64` are `Nat`; conversions to a
narrower type are written out as `% 2^32`. -/
namespace Shamrock

/-! ### std::map -/

/-- `std::map::find`/`at` (C++ standard library); used by /repo/src/shambase/include/shambase/DistributedData.hpp:127,145. -/
def mfind {V : Type} : List (Nat × V) → Nat → Option V
  | [], _ => none
  | (k, v) :: m, q => if k = q then some v else mfind m q

/-- `std::map::emplace` (C++ standard library): inserts at the sorted position unless the key is present; the flag tells whether
the insertion took place. Used by /repo/src/shambase/include/shambase/DistributedData.hpp:69. -/
def memplace {V : Type} : List (Nat × V) → Nat → V → List (Nat × V) × Bool
  | [], q, x => ([(q, x)], true)
  | (k, v) :: m, q, x =>
    if q < k then ((q, x) :: (k, v) :: m, true)
    else if q = k then ((k, v) :: m, false)
    else
      let r := memplace m q x
      ((k, v) :: r.1, r.2)

/-- `std::map::erase(key)` (C++ standard library); used by DistributedData.hpp:83. -/
def merase {V : Type} : List (Nat × V) → Nat → List (Nat × V)
  | [], _ => []
  | (k, v) :: m, q => if k = q then m else (k, v) :: merase m q

/-! ### DistributedData, /repo/src/shambase/include/shambase/DistributedData.hpp -/

/-- `DistributedData::add_obj`, DistributedData.hpp:67-76; `none` is the thrown `runtime_error` (the map is left as
`emplace` left it, which is what `memplace` returns). -/
def ddAddObj {V : Type} (m : List (Nat × V)) (id : Nat) (x : V) : List (Nat × V) × Option Unit :=
  let ret := memplace m id x
  if !ret.2 then (ret.1, none) else (ret.1, some ())

/-- `DistributedData::erase`, DistributedData.hpp:83. -/
def ddErase {V : Type} (m : List (Nat × V)) (id : Nat) : List (Nat × V) := merase m id

/-- `DistributedData::get_ids`, DistributedData.hpp:111-118. -/
def ddGetIds {V : Type} (m : List (Nat × V)) : List Nat := m.map Prod.fst

/-- `DistributedData::get`, DistributedData.hpp:145-176; `none` is the thrown `runtime_error`. -/
def ddGet {V : Type} (m : List (Nat × V)) (id : Nat) : Option V := mfind m id

/-- `DistributedData::has_key`, DistributedData.hpp:185. -/
def ddHasKey {V : Type} (m : List (Nat × V)) (id : Nat) : Bool := (mfind m id).isSome

/-- `DistributedData::get_element_count`, DistributedData.hpp:192. -/
def ddCount {V : Type} (m : List (Nat × V)) : Nat := m.length

/-- `DistributedData::is_empty`, DistributedData.hpp:199. -/
def ddIsEmpty {V : Type} (m : List (Nat × V)) : Bool := m.isEmpty

/-- Body of the `for_each` of `DistributedData::map`, DistributedData.hpp:253-255 (an exception of `add_obj` would propagate:
`none`). -/
def ddMapStep {V W : Type} (f : Nat → V → W) (acc : Option (List (Nat × W))) (kv : Nat × V) : Option (List (Nat × W)) :=
  acc.bind fun r =>
    match ddAddObj r kv.1 (f kv.1 kv.2) with
    | (r', some ()) => some r'
    | (_, none) => none

/-- `DistributedData::map`, DistributedData.hpp:249-270: `for_each` in key order, `add_obj` into a fresh container. -/
def ddMap {V W : Type} (f : Nat → V → W) (m : List (Nat × V)) : Option (List (Nat × W)) :=
  m.foldl (ddMapStep f) (some [])

/-- `DistributedData::reset`, DistributedData.hpp:277. -/
def ddReset {V : Type} (_ : List (Nat × V)) : List (Nat × V) := []

/-! ### set_diff and on_distributeddata_diff -/

/-- `std::set::insert` (C++ standard library); used by sets.hpp:51. -/
def sinsert : List Nat → Nat → List Nat
  | [], q => [q]
  | k :: s, q => if q < k then q :: k :: s else if q = k then k :: s else k :: sinsert s q

/-- The reference loop of `set_diff`, /repo/src/shambase/include/shambase/sets.hpp:54-61. State: remaining set, missing,
matching. -/
def setDiffStep (st : List Nat × List Nat × List Nat) (a : Nat) : List Nat × List Nat × List Nat :=
  let (s, missing, matching) := st
  if a ∈ s then (s.erase a, missing, matching ++ [a]) else (s.erase a, missing ++ [a], matching)

/-- `set_diff`, /repo/src/shambase/include/shambase/sets.hpp:40-66: (missing, matching, extra). -/
def setDiff (c1 ref : List Nat) : List Nat × List Nat × List Nat :=
  let ddIds := c1.foldl sinsert []
  let (s, missing, matching) := ref.foldl setDiffStep (ddIds, [], [])
  (missing, matching, s)

/-- `on_distributeddata_ids_diff`, DistributedData.hpp:300-331: the ids pass through a lambda with parameter `u32 id`
(line 310), i.e. are truncated to 32 bits. Result: the ids the three callbacks are called with. -/
def onDDIdsDiff {V : Type} (dd : List (Nat × V)) (refIds : List Nat) : List Nat × List Nat × List Nat :=
  let ddIds := dd.map fun kv => kv.1 % 2 ^ 32
  setDiff ddIds refIds

/-- `on_distributeddata_diff`, DistributedData.hpp:350-365: same truncation for the reference ids (line 360). -/
def onDDDiff {V W : Type} (dd : List (Nat × V)) (reference : List (Nat × W)) : List Nat × List Nat × List Nat :=
  let refIds := reference.map fun kv => kv.1 % 2 ^ 32
  onDDIdsDiff dd refIds

/-! ### DistributedDataShared, /repo/src/shambase/include/shambase/DistributedDataShared.hpp -/

/-- `std::pair<u64,u64>` comparison used by the multimap (C++ standard library). -/
def pairLt (a b : Nat × Nat) : Bool := a.1 < b.1 || (a.1 == b.1 && a.2 < b.2)

/-- `std::multimap::emplace` / `insert(node)` (C++ standard library): inserted at the upper bound of its key. Used by
DistributedDataShared.hpp:96,154. -/
def mmEmplace {V : Type} : List ((Nat × Nat) × V) → (Nat × Nat) × V → List ((Nat × Nat) × V)
  | [], x => [x]
  | y :: m, x => if pairLt x.1 y.1 then x :: y :: m else y :: mmEmplace m x

/-- `std::multimap::extract(key)` (C++ standard library): unlinks the first element with that key. Used by
DistributedDataShared.hpp:153. -/
def mmExtract {V : Type} : List ((Nat × Nat) × V) → Nat × Nat → List ((Nat × Nat) × V) × Option ((Nat × Nat) × V)
  | [], _ => ([], none)
  | y :: m, p => if y.1 = p then (m, some y) else
      let r := mmExtract m p
      (y :: r.1, r.2)

/-- `DistributedDataShared::add_obj`, DistributedDataShared.hpp:95-97. -/
def ddsAddObj {V : Type} (m : List ((Nat × Nat) × V)) (l r : Nat) (x : V) : List ((Nat × Nat) × V) :=
  mmEmplace m ((l, r), x)

/-- One iteration of the transfer loop, DistributedDataShared.hpp:152-155 (inserting an empty node handle does nothing). -/
def ddsTransferStep {V : Type} (st : List ((Nat × Nat) × V) × List ((Nat × Nat) × V)) (p : Nat × Nat) :
    List ((Nat × Nat) × V) × List ((Nat × Nat) × V) :=
  let ext := mmExtract st.1 p
  match ext.2 with
  | some x => (ext.1, mmEmplace st.2 x)
  | none => (ext.1, st.2)

/-- `DistributedDataShared::tranfer_all`, DistributedDataShared.hpp:139-156 (`other` a different container). -/
def ddsTransferAll {V : Type} (cd : Nat → Nat → Bool) (data other : List ((Nat × Nat) × V)) :
    List ((Nat × Nat) × V) × List ((Nat × Nat) × V) :=
  let occurences := (data.filter fun kv => cd kv.1.1 kv.1.2).map Prod.fst
  occurences.foldl ddsTransferStep (data, other)

/-- `DistributedDataShared::has_key`, DistributedDataShared.hpp:171-173. -/
def ddsHasKey {V : Type} (m : List ((Nat × Nat) × V)) (l r : Nat) : Bool := m.any fun kv => kv.1 == (l, r)

/-! ### FixedStack, /repo/src/shambase/include/shambase/FixedStack.hpp -/

/-- `FixedStack<T, stack_size>`, FixedStack.hpp:88-98. `mem` is `id_stack` (`none` = never written), `cursor` is a `u32` kept as
`Nat`; template parameter `n = stack_size`. -/
structure FixedStack (T : Type) (n : Nat) where
  mem : List (Option T)
  cursor : Nat

/-- Default constructor, FixedStack.hpp:104. -/
def FixedStack.empty0 (T : Type) (n : Nat) : FixedStack T n := ⟨List.replicate n none, n⟩

/-- Value constructor, FixedStack.hpp:107-109. -/
def FixedStack.single {T : Type} (n : Nat) (v : T) : FixedStack T n :=
  ⟨(List.replicate n none).set (n - 1) (some v), n - 1⟩

/-- `is_not_empty`, FixedStack.hpp:112. -/
def FixedStack.isNotEmpty {T : Type} {n : Nat} (s : FixedStack T n) : Bool := s.cursor < n

/-- `empty`, FixedStack.hpp:115. -/
def FixedStack.isEmpty {T : Type} {n : Nat} (s : FixedStack T n) : Bool := s.cursor == n

/-- `size`, FixedStack.hpp:118 (u32 subtraction). -/
def FixedStack.size {T : Type} {n : Nat} (s : FixedStack T n) : Nat := (n + 2 ^ 32 - s.cursor) % 2 ^ 32

/-- Store into `id_stack` at a `u32` index; `none` when the index is outside the array (undefined behaviour). -/
def FixedStack.store {T : Type} {n : Nat} (s : FixedStack T n) (i : Nat) (v : T) : Option (FixedStack T n) :=
  if i < n then some { s with mem := s.mem.set i (some v) } else none

/-- `push`, FixedStack.hpp:121-128. `SHAM_ASSERT` compiles to nothing in release builds; the cursor wraps as a u32. -/
def FixedStack.push {T : Type} {n : Nat} (s : FixedStack T n) (v : T) : Option (FixedStack T n) :=
  let c := (s.cursor + 2 ^ 32 - 1) % 2 ^ 32
  FixedStack.store { s with cursor := c } c v

/-- `top`, FixedStack.hpp:131-140; `none` = read outside the array or of an element never written. -/
def FixedStack.top {T : Type} {n : Nat} (s : FixedStack T n) : Option T :=
  match s.mem[s.cursor]? with
  | some (some v) => some v
  | _ => none

/-- `pop`, FixedStack.hpp:143-149. -/
def FixedStack.pop {T : Type} {n : Nat} (s : FixedStack T n) : FixedStack T n :=
  { s with cursor := (s.cursor + 1) % 2 ^ 32 }

/-- `pop_ret`, FixedStack.hpp:153-157. -/
def FixedStack.popRet {T : Type} {n : Nat} (s : FixedStack T n) : Option (T × FixedStack T n) :=
  match s.top with
  | some v => some (v, s.pop)
  | none => none

/-- The operations a user can call on a stack. -/
inductive StackOp (T : Type) where
  | push (v : T)
  | pop
  | popRet
  | top
  | isEmpty
  | isNotEmpty
  | size

/-- What an operation shows to the user. -/
inductive StackObs (T : Type) where
  | unit
  | val (v : T)
  | bool (b : Bool)
  | nat (n : Nat)
deriving DecidableEq

/-- One operation on the model; `none` = undefined behaviour. -/
def FixedStack.step {T : Type} {n : Nat} (s : FixedStack T n) : StackOp T → Option (StackObs T × FixedStack T n)
  | .push v => (s.push v).map fun s' => (.unit, s')
  | .pop => some (.unit, s.pop)
  | .popRet => s.popRet.map fun r => (.val r.1, r.2)
  | .top => s.top.map fun v => (.val v, s)
  | .isEmpty => some (.bool s.isEmpty, s)
  | .isNotEmpty => some (.bool s.isNotEmpty, s)
  | .size => some (.nat s.size, s)

/-- A history of operations on the model: list of observations. -/
def FixedStack.run {T : Type} {n : Nat} : FixedStack T n → List (StackOp T) → Option (List (StackObs T) × FixedStack T n)
  | s, [] => some ([], s)
  | s, op :: ops =>
    match s.step op with
    | none => none
    | some (o, s') =>
      match FixedStack.run s' ops with
      | none => none
      | some (os, s'') => some (o :: os, s'')

/-! ### DynamicIdGenerator and WithUUID -/

/-- Device state of `DynamicIdGenerator` during one kernel: the atomic `group_id[0]` (DynamicIdGenerator.hpp:134,142), the local
memory cell of every work group (`local_group_id`, :89) and the `dyn_global_id` each work item computed. -/
structure DynIdState where
  counter : Nat
  loc : Nat → Option Nat
  out : Nat → Nat → Option Nat

/-- Initial state, DynamicIdGenerator.hpp:141-143. -/
def DynIdState.init : DynIdState := ⟨0, fun _ => none, fun _ _ => none⟩

/-- Atomic actions. `main g`: work item 0 of (hardware) group `g` executes the `fetch_add` and the store to local memory,
DynamicIdGenerator.hpp:104-117. `read g l`: work item `l` of group `g` passes the barrier and computes its ids, :118-121. -/
inductive DynIdAct where
  | main (g : Nat)
  | read (g l : Nat)

/-- Effect of one action. The barrier at DynamicIdGenerator.hpp:118 is modelled by `read g l` being impossible (`none`) before
`main g`; each item runs the function once, so `main g` is impossible twice. `M = 2^width` of `int_t`. -/
def DynIdState.step (M gs G : Nat) (s : DynIdState) : DynIdAct → Option DynIdState
  | .main g =>
    if g < G ∧ s.loc g = none then
      some { s with counter := (s.counter + 1) % M, loc := fun g' => if g' = g then some s.counter else s.loc g' }
    else none
  | .read g l =>
    match s.loc g with
    | none => none
    | some d =>
      if l < gs then
        some { s with out := fun g' l' => if g' = g ∧ l' = l then some ((d * gs + l) % M) else s.out g' l' }
      else none

/-- A schedule: any sequence of possible actions. -/
def DynIdState.run (M gs G : Nat) : DynIdState → List DynIdAct → Option DynIdState
  | s, [] => some s
  | s, a :: as =>
    match s.step M gs G a with
    | none => none
    | some s' => DynIdState.run M gs G s' as

/-- Object creation events of a `WithUUID` class, /repo/src/shambase/include/shambase/WithUUID.hpp:58-71: default
construction takes the next value of the static counter; the implicit copy constructor copies the member `uuid` of object
number `i`. -/
inductive UuidEv where
  | construct
  | copy (i : Nat)

/-- State: (static counter, uuids of the objects created so far). `M = 2^width` of `Tint`. -/
def uuidStep (M : Nat) (st : Nat × List Nat) : UuidEv → Nat × List Nat
  | .construct => ((st.1 + 1) % M, st.2 ++ [st.1])
  | .copy i => (st.1, st.2 ++ [st.2.getD i 0])

def uuidRun (M : Nat) (evs : List UuidEv) : Nat × List Nat := evs.foldl (uuidStep M) (0, [])

end Shamrock
