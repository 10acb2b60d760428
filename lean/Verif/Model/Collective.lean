import Verif.Model.Res
import Verif.Model.Patch
/-! Collectives of shamalgs and the invariant parallel generator. Rank `r` of `W` runs the same program; the model of a collective takes the
inputs of all ranks (a list indexed by rank). A call in which some rank throws returns on no rank (the others block in MPI): result `throws`.
MPI collectives (`Allgather`, `Allgatherv`, `Allreduce`, `Exscan`) are modelled by their specification (trusted). -/
namespace Shamrock

/-- Writes `l` at offset `off` of the buffer (undefined out of bounds). -/
def blockWrite {T : Type} (buf : List T) (off : Nat) (l : List T) : Res (List T) :=
  if off + l.length ≤ buf.length then .ok (buf.take off ++ l ++ buf.drop (off + l.length)) else .ub

/-- MPI_Allgatherv, seen from one rank: block `i` of `counts[i]` elements goes to `displs[i]`; the send count of rank `i` must be the announced
one (shamcomm/wrapper.hpp `Allgatherv`). -/
def mpiAllgatherv {T : Type} : List (List T) → List Nat → List Nat → List T → Res (List T)
  | [], _, _, recv => .ok recv
  | x :: xs, c :: cs, d :: ds, recv => if x.length = c then (blockWrite recv d x).bind (mpiAllgatherv xs cs ds) else .ub
  | _ :: _, _, _, _ => .ub

/-- std::accumulate(.., 0_u64) (exchanges.hpp:129): wrapping 64 bit sum. -/
def accU64 (l : List Nat) : Nat := l.foldl u64add 0

/-- std::exclusive_scan(.., 0) over `int` (exchanges.hpp:145-149); signed overflow is undefined behaviour. -/
def exScanInt : List Nat → Nat → Res (List Nat)
  | [], _ => .ok []
  | [_], a => .ok [a]
  | c :: d :: l, a => if a + c < 2 ^ 31 then (exScanInt (d :: l) (a + c)).bind fun r => .ok (a :: r) else .ub

/-- vector_allgatherv on `MPI_COMM_WORLD`, shamalgs/collective/exchanges.hpp:98-162: receive vector and displacements. `recv0` is the vector
passed in, `dflt` the value `resize` fills with, `xs` the send vectors of all ranks. -/
def vectorAllgatherv {T : Type} (dflt : T) (xs : List (List T)) (recv0 : List T) : Res (List T × List Nat) :=
  if xs.any (fun x => decide (2 ^ 31 ≤ x.length)) then .throws
  else
    let counts := xs.map List.length
    let tmp := accU64 counts
    if 2 ^ 31 ≤ tmp then .throws
    else
      let recv := recv0.take tmp ++ List.replicate (tmp - recv0.length) dflt
      if tmp = 0 then .ok (recv, [])
      else (exScanInt counts 0).bind fun displs => (mpiAllgatherv xs counts displs recv).bind fun out => .ok (out, displs)

/-- The insertion loop, exchanges.hpp:206-213: `n` iterations left, at index `i`; `rd` is `result_disps`. -/
def agvlInsert {T : Type} (int : List T) (disp : List Nat) : Nat → Nat → List T → List Nat → Res (List T × List Nat)
  | 0, _, recv, rd => .ok (recv, rd)
  | n + 1, i, recv, rd =>
    match disp[i]?, disp[i + 1]?, rd[i]?, rd[i + 1]? with
    | some a, some b, some u, some v =>
      if v + a ≤ recv.length ∧ a ≤ b ∧ b ≤ int.length then
        agvlInsert int disp n (i + 1) (recv.take (v + a) ++ (int.drop a).take (b - a) ++ recv.drop (v + a)) (rd.set i (u64add u a))
      else .ub
    | _, _, _, _ => .ub

/-- The chunk a rank sends, exchanges.hpp:193-197. -/
def agvlChunk {T : Type} (cps : Nat) (x : List T) (off : Nat) : List T := (x.drop off).take (min cps (x.length - off))

/-- One turn of the while loop, exchanges.hpp:193-214. -/
def agvlStep {T : Type} (dflt : T) (cps : Nat) (xs : List (List T)) (offs : List Nat) (recv : List T) (rd : List Nat) :
    Res (List Nat × List T × List Nat) :=
  let chunks := List.zipWith (agvlChunk cps) xs offs
  (vectorAllgatherv dflt chunks []).bind fun (int, disp0) =>
    if 2 ^ 31 ≤ int.length then .throws
    else
      let disp := disp0 ++ [int.length]
      (agvlInsert int disp (disp.length - 1) 0 recv rd).bind fun (recv', rd') =>
        match rd'[disp.length - 1]?, disp[disp.length - 1]? with
        | some u, some a => .ok (List.zipWith (· + ·) offs (chunks.map List.length), recv', rd'.set (disp.length - 1) (u64add u a))
        | _, _ => .ub

/-- vector_allgatherv_large, exchanges.hpp:175-216: at most `fuel` turns; `none`: the loop is still running. The loop condition
`are_all_rank_true(send_offset == send_vec.size())` is the same on all ranks. -/
def agvlLoop {T : Type} (dflt : T) (cps : Nat) (xs : List (List T)) : Nat → List Nat → List T → List Nat → Option (Res (List T))
  | 0, _, _, _ => none
  | fuel + 1, offs, recv, rd =>
    if (List.zipWith (fun x o => decide (o = x.length)) xs offs).all id then some (.ok recv)
    else match agvlStep dflt cps xs offs recv rd with
      | .ok (offs', recv', rd') => agvlLoop dflt cps xs fuel offs' recv' rd'
      | .throws => some .throws
      | .ub => some .ub

def vectorAllgathervLarge {T : Type} (dflt : T) (cps : Nat) (xs : List (List T)) (recv0 : List T) (fuel : Nat) : Option (Res (List T)) :=
  agvlLoop dflt cps xs fuel (xs.map fun _ => 0) recv0 (List.replicate (xs.length + 1) 0)

/-- fetch_view, shamalgs/collective/indexing.hpp:33-50, on rank `r` (`Exscan` and `Allreduce` of u64 sums; the undefined `Exscan` result of rank
0 is replaced by 0): (total, head offset). -/
def fetchView (vals : List Nat) (r : Nat) : Nat × Nat := (accU64 vals, if r = 0 then 0 else accU64 (vals.take r))

/-- State of InvariantParallelGenerator, shamalgs/collective/InvariantParallelGenerator.hpp:28-32; `E` is the state of the random engine. -/
structure IPG (E : Type) where
  eng : E
  max : Nat
  cur : Nat
  done : Bool

/-- Constructor, InvariantParallelGenerator.hpp:94-99. -/
def IPG.mk' {E : Type} (e : E) (nmax : Nat) : IPG E := ⟨e, nmax, 0, decide (nmax = 0)⟩

/-- Engine::discard (C++ standard: `n` calls whose results are dropped). -/
def engDiscard {E : Type} (next : E → E × Nat) : Nat → E → E
  | 0, e => e
  | n + 1, e => engDiscard next n (next e).1

/-- `n` calls of the engine, InvariantParallelGenerator.hpp:53-56. -/
def engTake {E : Type} (next : E → E × Nat) : Nat → E → List Nat × E
  | 0, e => ([], e)
  | n + 1, e => let (l, e') := engTake next n (next e).1; ((next e).2 :: l, e')

/-- skip, InvariantParallelGenerator.hpp:34-43. -/
def IPG.skip {E : Type} (next : E → E × Nat) (g : IPG E) (n : Nat) : IPG E :=
  let toSkip := min (u64sub g.max g.cur) n
  let cur := u64add g.cur toSkip
  ⟨engDiscard next toSkip g.eng, g.max, cur, g.done || decide (cur = g.max)⟩

/-- next_n_sequential, InvariantParallelGenerator.hpp:45-63. -/
def IPG.nextSeq {E : Type} (next : E → E × Nat) (g : IPG E) (n : Nat) : List Nat × IPG E :=
  if g.done then ([], g)
  else
    let k := min n (u64sub g.max g.cur)
    let (l, e) := engTake next k g.eng
    let cur := u64add g.cur k
    (l, ⟨e, g.max, cur, g.done || decide (cur = g.max)⟩)

/-- next_n_parallel, InvariantParallelGenerator.hpp:65-91, on rank `r` (request `vals[r]`). The collective in `fetch_view` is reached only by the
ranks whose generator is not done; that all ranks agree is part of what is proved. -/
def IPG.nextPar {E : Type} (next : E → E × Nat) (g : IPG E) (vals : List Nat) (r : Nat) : List Nat × IPG E :=
  if g.done then ([], g)
  else
    let v := vals.getD r 0
    let (total, head) := fetchView vals r
    let skipEnd := u64sub (u64sub total v) head
    let g1 := g.skip next head
    let (l, g2) := g1.nextSeq next v
    (l, g2.skip next skipEnd)

/-- next_n, InvariantParallelGenerator.hpp:119-126 (`allreduce_sum` is the wrapping sum over ranks). -/
def IPG.nextN {E : Type} (next : E → E × Nat) (g : IPG E) (vals : List Nat) (seq : Bool) (r : Nat) : List Nat × IPG E :=
  if seq then g.nextSeq next (accU64 vals) else g.nextPar next vals r

/-- all_ranks_are_in_sync, InvariantParallelGenerator.hpp:132-145: `gs` are the generators of all ranks. -/
def ipgInSync {E : Type} (next : E → E × Nat) (gs : List (IPG E)) (r : Nat) : Bool :=
  (gs.map fun g => (next g.eng).2).all fun v => decide (some v = (gs[r]?).map fun g => (next g.eng).2)

end Shamrock
