import Verif.Model.Containers
import Verif.Model.Scan
/-! `ObjectCacheHandler`, /repo/src/shamtree/include/shamtree/TreeTraversalCache.hpp: neighbour caches built on demand, kept on the device
up to a memory limit and offloaded to the host beyond it. Logging is not modelled. -/
namespace Shamrock

/-- A `DeviceBuffer<u32>`: its elements and the number of bytes it holds, /repo/src/shambackends/include/shambackends/DeviceBuffer.hpp:483. -/
structure DevBuf where
  data : List (BitVec 32)
  hold : Nat
  deriving DecidableEq, Repr

/-- `HostObjectCache`, /repo/src/shamtree/include/shamtree/TreeTraversal.hpp:363-373. -/
structure HostObj where
  cnt : List (BitVec 32)
  scan : List (BitVec 32)
  sum : BitVec 32
  neigh : List (BitVec 32)
  deriving DecidableEq, Repr

/-- `ObjectCache`, TreeTraversal.hpp:375-379. -/
structure DevObj where
  cnt : DevBuf
  scan : DevBuf
  sum : BitVec 32
  neigh : DevBuf
  deriving DecidableEq, Repr

/-- `HostObjectCache::get_memsize`, TreeTraversal.hpp:369-372. -/
def HostObj.memsize (h : HostObj) : BitVec 64 := BitVec.ofNat 64 ((h.cnt.length + h.scan.length + h.neigh.length + 1) * 4)

/-- `ObjectCache::get_memsize`, TreeTraversal.hpp:381-384. -/
def DevObj.memsize (o : DevObj) : BitVec 64 := BitVec.ofNat 64 (o.cnt.hold + o.scan.hold + o.neigh.hold + 4)

/-- `ObjectCache::copy_to_host`, TreeTraversal.hpp:386-393. -/
def DevObj.toHost (o : DevObj) : HostObj := ⟨o.cnt.data, o.scan.data, o.sum, o.neigh.data⟩

/-- `ObjectCache::build_from_host`, TreeTraversal.hpp:395-415; `alloc n` is the number of bytes allocated for `n` elements
(DeviceBuffer.hpp:147-159). -/
def DevObj.ofHost (alloc : Nat → Nat) (h : HostObj) : DevObj :=
  ⟨⟨h.cnt, alloc h.cnt.length⟩, ⟨h.scan, alloc h.scan.length⟩, h.sum, ⟨h.neigh, alloc h.neigh.length⟩⟩

/-- What a handler is built from, TreeTraversalCache.hpp:39-40: the limit, the generator (`gen t id` is what its call number `t` returns for
`id`, an arbitrary function: a generator that throws is not modelled) and the allocator. -/
structure OCEnv where
  alloc : Nat → Nat
  gen : Nat → Nat → DevObj
  max : BitVec 64

/-- The members of `ObjectCacheHandler`, TreeTraversalCache.hpp:28-36. `calls` (the arguments of the calls of the generator so far) and `epoch`
(how many there were at the last `reset`) are not in the code: they let theorems speak of the calls. -/
structure OCH where
  cache : List (Nat × DevObj)
  off : List (Nat × HostObj)
  dq : List Nat
  dev : BitVec 64
  host : BitVec 64
  calls : List Nat
  epoch : Nat
  deriving DecidableEq

/-- A new handler, TreeTraversalCache.hpp:35-40. -/
def OCH.init : OCH := ⟨[], [], [], 0, 0, [], 0⟩

/-- Result of a method: `none` is undefined behaviour, `some (s, none)` an exception that leaves the handler in state `s`,
`some (s, some a)` the return of `a`. -/
abbrev OCRes (α : Type) := Option (OCH × Option α)

/-- Continue after a normal return. -/
def OCRes.andThen {α β : Type} (r : OCRes α) (f : OCH → α → OCRes β) : OCRes β :=
  match r with
  | none => none
  | some (s, none) => some (s, none)
  | some (s, some a) => f s a

/-- `pop_offload`, TreeTraversalCache.hpp:47-52. -/
def popOffload (E : OCEnv) (s : OCH) (id : Nat) : OCRes DevObj :=
  match ddGet s.off id with
  | none => some (s, none)
  | some h =>
    let tmp := DevObj.ofHost E.alloc h
    some ({ s with off := ddErase s.off id, host := s.host - tmp.memsize }, some tmp)

/-- `pop_cache`, TreeTraversalCache.hpp:54-63. -/
def popCache (s : OCH) (id : Nat) : OCRes HostObj :=
  match ddGet s.cache id with
  | none => some (s, none)
  | some tmp => some ({ s with dev := s.dev - tmp.memsize, cache := ddErase s.cache id }, some tmp.toHost)

/-- `push_offload`, TreeTraversalCache.hpp:65-68. -/
def pushOffload (s : OCH) (id : Nat) (c : HostObj) : OCRes Unit :=
  let r := ddAddObj s.off id c
  some ({ s with host := s.host + c.memsize, off := r.1 }, r.2)

/-- `push_cache`, TreeTraversalCache.hpp:70-74: `add_obj` may throw after the size has been added. -/
def pushCache (s : OCH) (id : Nat) (c : DevObj) : OCRes Unit :=
  let r := ddAddObj s.cache id c
  match r.2 with
  | none => some ({ s with dev := s.dev + c.memsize, cache := r.1 }, none)
  | some u => some ({ s with dev := s.dev + c.memsize, cache := r.1, dq := s.dq ++ [id] }, some u)

/-- `offload_entry`, TreeTraversalCache.hpp:76-79. -/
def offloadEntry (s : OCH) (id : Nat) : OCRes Unit :=
  (popCache s id).andThen fun s tmp => pushOffload s id tmp

/-- `load_or_build_cache`, TreeTraversalCache.hpp:81-87. -/
def loadOrBuild (E : OCEnv) (s : OCH) (id : Nat) : OCRes DevObj :=
  if ddHasKey s.off id then popOffload E s id
  else some ({ s with calls := s.calls ++ [id] }, some (E.gen s.calls.length id))

/-- The `do … while` of `offload_oldest`, TreeTraversalCache.hpp:93-122, on the contents of the deque; `front` of an empty deque is undefined. -/
def offloadOldestGo (s : OCH) : List Nat → OCRes Unit
  | [] => if ddIsEmpty s.cache then some ({ s with dq := [] }, none) else none
  | lastId :: dq =>
    if ddIsEmpty s.cache then some ({ s with dq := lastId :: dq }, none)
    else if ddHasKey s.cache lastId then offloadEntry { s with dq := dq } lastId
    else offloadOldestGo s dq

/-- `offload_oldest`, TreeTraversalCache.hpp:93-122. -/
def offloadOldest (s : OCH) : OCRes Unit := offloadOldestGo s s.dq

/-- `push_new`, TreeTraversalCache.hpp:130-141. -/
def pushNew (E : OCEnv) (s : OCH) (id : Nat) (c : DevObj) : OCRes Unit :=
  if E.max < c.memsize + s.dev then some (s, none)
  else (pushCache s id c).andThen fun s u => some ({ s with dq := s.dq ++ [id] }, some u)

/-- The `while` loop of `build_cache`, TreeTraversalCache.hpp:156-168; the first argument bounds the number of turns (`none` beyond). -/
def makeRoom (E : OCEnv) (newSz : BitVec 64) : Nat → OCH → OCRes Unit
  | 0, _ => none
  | fuel + 1, s =>
    if E.max < newSz + s.dev then
      if ddIsEmpty s.cache then some (s, none)
      else (offloadOldest s).andThen fun s _ => makeRoom E newSz fuel s
    else some (s, some ())

/-- `build_cache`, TreeTraversalCache.hpp:150-179. The loop cannot turn more often than there are cached objects, plus one. -/
def ocBuild (E : OCEnv) (s : OCH) (id : Nat) : OCRes Unit :=
  (loadOrBuild E s id).andThen fun s c =>
    (makeRoom E c.memsize (s.cache.length + 1) s).andThen fun s _ => pushNew E s id c

/-- `get_cache`, TreeTraversalCache.hpp:187-194; also `preload`, 196. -/
def ocGet (E : OCEnv) (s : OCH) (id : Nat) : OCRes DevObj :=
  if ddHasKey s.cache id then some (s, ddGet s.cache id)
  else (ocBuild E s id).andThen fun s _ => some (s, ddGet s.cache id)

/-- `reset`, TreeTraversalCache.hpp:198-204. -/
def ocReset (s : OCH) : OCH := ⟨[], [], [], 0, 0, s.calls, s.calls.length⟩

/-- A call of the interface. -/
inductive OCOp where
  | get (id : Nat)
  | reset
  deriving DecidableEq

/-- One call; the object returned, if any. -/
def ocStep (E : OCEnv) (s : OCH) : OCOp → Option (OCH × Option DevObj)
  | .get id => ocGet E s id
  | .reset => some (ocReset s, none)

/-- A history of calls, in which the caller catches the exceptions: the final state and what each call returned. -/
def ocRun (E : OCEnv) : OCH → List OCOp → Option (OCH × List (Option DevObj))
  | s, [] => some (s, [])
  | s, op :: ops =>
    match ocStep E s op with
    | none => none
    | some (s', r) => (ocRun E s' ops).map fun x => (x.1, r :: x.2)

end Shamrock
