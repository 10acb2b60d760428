import Verif.Model.Search
/-! Model of the exclusive scans and of stream compaction of shamalgs.

`T = u32` (the only instantiation) is `BitVec 32`: additions wrap. Work items of one launch run in an arbitrary order; the
decoupled look-back scan is a transition system whose actions are the individual global memory accesses of the work groups. -/
namespace Shamrock

/-- `u32`. -/
abbrev W32 := BitVec 32

/-! ### Sequential fallbacks -/

/-- The loop of `exclusive_sum_fallback`, /repo/src/shamalgs/src/details/numeric/numericFallback.cpp:28-41
(`acc` is the variable `accum`). Also the in-place loop :83-99 and `std::exclusive_scan(…, 0)` at :53. -/
def exclSumLoop (acc : W32) : List W32 → List W32
  | [] => []
  | v :: r => acc :: exclSumLoop (acc + v) r

/-- `exclusive_sum_fallback`, numericFallback.cpp:25-44. -/
def exclSumFallback (l : List W32) : List W32 := exclSumLoop 0 l

/-- The loop of `inclusive_sum_fallback`, numericFallback.cpp:62-80, and in place :101-113. -/
def inclSumLoop (acc : W32) : List W32 → List W32
  | [] => []
  | v :: r => (acc + v) :: inclSumLoop (acc + v) r

/-- `inclusive_sum_fallback`, numericFallback.cpp:62-80. -/
def inclSumFallback (l : List W32) : List W32 := inclSumLoop 0 l

/-- `stream_compact_fallback`, numericFallback.cpp:153-172: host loop `for idx < len: if (flags[idx]) push_back(idx)`. -/
def streamCompactFallback : List W32 → Nat → List Nat → List Nat
  | [], _, idxs => idxs
  | f :: r, idx, idxs => streamCompactFallback r (idx + 1) (if f ≠ 0 then idxs ++ [idx] else idxs)

/-! ### GPU Gems 39 log-step scan -/

/-- First launch of `exclusive_sum_gpugems39_1`, /repo/src/shamalgs/src/details/numeric/exclusiveScanGPUGems39.cpp:80-83, work
item `thid` (the input and the output are distinct buffers, so the order of work items is irrelevant). `rl` is the launch
size, `cl` the `correct_len` of versions 2 and 3 (:139-142); version 1 is `rl = cl = len`. -/
def gemsInit (l : List W32) (rl cl : Nat) : Option (List W32) :=
  (List.range rl).mapM (fun thid => if 0 < thid ∧ thid < cl then l[thid - 1]? else some 0)

/-- One launch of the loop, exclusiveScanGPUGems39.cpp:92-98 and :153-160. -/
def gemsStep (l : List W32) (offset : Nat) : Option (List W32) :=
  (List.range l.length).mapM (fun thid => do
    let v ← l[thid]?
    if offset ≤ thid then do
      let w ← l[thid - offset]?
      pure (v + w)
    else pure v)

/-- `for (int offset = 1; offset < len; offset *= 2)`, exclusiveScanGPUGems39.cpp:86-103. `none` when `offset *= 2` overflows
the `int` (undefined behaviour) or an access is out of bounds. The two buffers `out1`/`out2` are swapped after each launch. -/
def gemsLoop (n : Nat) : Nat → Nat → List W32 → Option (List W32)
  | 0, _, _ => none
  | fuel + 1, offset, l =>
    if offset < n then do
      let l' ← gemsStep l offset
      if offset * 2 < 2 ^ 31 then gemsLoop n fuel (offset * 2) l' else none
    else some l

/-- `exclusive_sum_gpugems39_1`, exclusiveScanGPUGems39.cpp:55-107 (`32` iterations are enough: `offset` doubles). -/
def gemsScan1 (l : List W32) : Option (List W32) := do
  let l0 ← gemsInit l l.length l.length
  gemsLoop l.length 33 1 l0

/-- `exclusive_sum_gpugems39_2` / `_3` (same text), exclusiveScanGPUGems39.cpp:113-171, 175-231, given the rounded length `rl`. -/
def gemsScan2 (l : List W32) (rl : Nat) : Option (List W32) := do
  let l0 ← gemsInit l rl l.length
  gemsLoop rl 33 1 l0

/-! ### Stream compaction -/

/-- Work item `idx` of the compaction kernel, /repo/src/shamalgs/src/details/numeric/streamCompactExclScan.cpp:128-145;
`sum` is the exclusive sum of the flags, `map` the index map being written. -/
def compactItem (sum : List W32) (lastIdx : Nat) (lastFlag : W32) (map : List Nat) (idx : Nat) : Option (List Nat) := do
  let cur ← sum[idx]?
  let should ← if idx < lastIdx then do
      let nxt ← sum[idx + 1]?
      pure (decide (cur.toNat < nxt.toNat))
    else pure (decide (lastFlag ≠ 0))
  if should then wr map cur.toNat idx else pure map

/-- `stream_compact_excl_scan` (USM), streamCompactExclScan.cpp:96-149. `garbage` is the uninitialised content of the new index
buffer and `order` the execution order of the work items. The scan used at :104 is taken to be the sequential one; C14 shows
that the device scan computes the same. -/
def streamCompact (flags : List W32) (garbage : Nat → Nat) (order : List Nat) : Option (List Nat) :=
  if flags.length < 2 then some (streamCompactFallback flags 0 [])
  else do
    let excl := exclSumFallback flags
    let e ← excl[flags.length - 1]?
    let f ← flags[flags.length - 1]?
    let newLen := if f ≠ 0 then e + 1 else e
    let map0 := (List.range newLen.toNat).map garbage
    if 0 < newLen.toNat then order.foldlM (compactItem excl (flags.length - 1) f) map0
    else pure map0

/-! ### Single pass scan with decoupled look-back -/

/-- Which of the scan kernels of /repo/src/shamalgs/include/shamalgs/details/numeric/scanDecoupledLookback.hpp is run.
`shifted`: the item loads `in[global_id - 1]` and uses an inclusive group scan (`v5` :316-330, `v5_usm` :443-452, in-place `v5`
:250-254), otherwise it loads `in[global_id]` and uses an exclusive group scan (`v5_usm_in_place` :580-588).
`inPlace`: loads read the buffer that is written. `dyn`: tile ids come from `DynamicIdGenerator` (group ids in arrival order),
otherwise they are the hardware group ids (in-place `v5` :247).
`K`: maximal number of groups resident on the device at once. -/
structure LBCfg where
  len : Nat
  gs : Nat
  G : Nat
  shifted : Bool
  inPlace : Bool
  dyn : Bool
  K : Nat
  inp : List W32

/-- Program counter of a group. -/
inductive LBPc where
  | idle
  | loading
  | lead0
  | look (ptr : Nat) (acc : W32)
  | haveAcc (acc : W32)
  | finish (acc : W32)
deriving DecidableEq, Repr

/-- Device state: `tiles` is `acc_tile_state` (one packed `u64` per group), `buf` the output (or in/out) buffer, `regs t l` the
value loaded by lane `l` of group `t`, `written g` whether the final store to index `g` was done. -/
structure LBState where
  pc : Nat → LBPc
  regs : Nat → Nat → Option W32
  tiles : List (BitVec 64)
  buf : List W32
  written : Nat → Bool
  started : Nat

/-- Initial state: all tiles `pack32(STATE_X, 0)` (scanDecoupledLookback.hpp:404-411); in place the buffer is the input. -/
def LBState.init (c : LBCfg) (out0 : List W32) : LBState :=
  { pc := fun _ => .idle, regs := fun _ _ => none, tiles := List.replicate c.G (pack32 0 0),
    buf := if c.inPlace then c.inp else out0, written := fun _ => false, started := 0 }

/-- One scheduling choice. -/
inductive LBAct where
  /-- group `t` becomes resident and gets its tile id -/
  | start (t : Nat)
  /-- lane `l` of group `t` loads its input -/
  | load (t l : Nat)
  /-- group scan and barrier -/
  | barrier (t : Nat)
  /-- next atomic access of lane 0 in the look-back -/
  | lead (t : Nat)
  /-- lane `l` of group `t` stores its result -/
  | write (t l : Nat)
deriving DecidableEq, Repr

/-- Result of an action: not possible now, undefined behaviour (out of bounds), or a new state. -/
inductive LBRes where
  | blocked
  | ub
  | ok (s : LBState)

/-- A group all whose lanes finished. -/
def LBState.complete (c : LBCfg) (s : LBState) (t : Nat) : Bool :=
  (match s.pc t with | .finish _ => true | _ => false) &&
    (List.range c.gs).all (fun l => decide (c.len ≤ t * c.gs + l) || s.written (t * c.gs + l))

/-- Number of groups resident on the device: started and not complete. -/
def LBState.resident (c : LBCfg) (s : LBState) : Nat :=
  ((List.range c.G).filter (fun t => decide (s.pc t ≠ .idle) && !s.complete c t)).length

/-- Sum of the values loaded by the first `n` lanes of group `t`. -/
def LBState.regSum (s : LBState) (t : Nat) : Nat → W32
  | 0 => 0
  | n + 1 => s.regSum t n + (s.regs t n).getD 0

/-- Index read by the item with global id `g`, if any: scanDecoupledLookback.hpp:444-445 (shifted), :581 (not shifted). -/
def LBCfg.src (c : LBCfg) (g : Nat) : Option Nat :=
  if c.shifted then (if 0 < g ∧ g < c.len then some (g - 1) else none) else (if g < c.len then some g else none)

/-- `local_scan` of lane `l`: `inclusive_scan_over_group` (shifted, :449-450) or `exclusive_scan_over_group` (:585-586). -/
def LBState.localScan (c : LBCfg) (s : LBState) (t l : Nat) : W32 :=
  if c.shifted then s.regSum t (l + 1) else s.regSum t l

/-- `pc` update. -/
def LBState.setPc (s : LBState) (t : Nat) (p : LBPc) : LBState := { s with pc := fun k => if k = t then p else s.pc k }

/-- One access of lane 0, scanDecoupledLookback.hpp:459-497 (usm), :597-631 (in place usm), :129-159 (shared helper). -/
def LBState.leadStep (c : LBCfg) (s : LBState) (t : Nat) : LBRes :=
  match s.pc t with
  | .lead0 =>
    if t ≠ 0 then
      match wr s.tiles t (pack32 1 (s.regSum t c.gs)) with
      | none => .ub
      | some ts => .ok ({ s with tiles := ts }.setPc t (.look (u32sub t 1) 0))
    else .ok (s.setPc t (.haveAcc 0))
  | .look ptr acc =>
    match s.tiles[ptr]? with
    | none => .ub
    | some v =>
      let st := unpack32 v
      if st.1 = 0 then .ok s
      else if st.1 = 2 then .ok (s.setPc t (.haveAcc (acc + st.2)))
      else .ok (s.setPc t (.look (u32sub ptr 1) (acc + st.2)))
  | .haveAcc acc =>
    match wr s.tiles t (pack32 2 (acc + s.regSum t c.gs)) with
    | none => .ub
    | some ts => .ok ({ s with tiles := ts }.setPc t (.finish acc))
  | _ => .blocked

/-- All actions. -/
def LBState.act (c : LBCfg) (s : LBState) : LBAct → LBRes
  | .start t =>
    if t < c.G ∧ s.pc t = .idle ∧ (c.dyn = true → t = s.started) ∧ s.resident c < c.K then
      .ok ({ s with started := s.started + 1 }.setPc t .loading)
    else .blocked
  | .load t l =>
    if t < c.G ∧ l < c.gs ∧ s.pc t = .loading ∧ s.regs t l = none then
      match c.src (t * c.gs + l) with
      | none => .ok { s with regs := fun t' l' => if t' = t ∧ l' = l then some 0 else s.regs t' l' }
      | some i =>
        match (if c.inPlace then s.buf else c.inp)[i]? with
        | none => .ub
        | some v => .ok { s with regs := fun t' l' => if t' = t ∧ l' = l then some v else s.regs t' l' }
    else .blocked
  | .barrier t =>
    if t < c.G ∧ s.pc t = .loading ∧ ∀ l < c.gs, s.regs t l ≠ none then .ok (s.setPc t .lead0) else .blocked
  | .lead t => if t < c.G then s.leadStep c t else .blocked
  | .write t l =>
    match s.pc t with
    | .finish acc =>
      if t < c.G ∧ l < c.gs ∧ t * c.gs + l < c.len ∧ s.written (t * c.gs + l) = false then
        match wr s.buf (t * c.gs + l) (s.localScan c t l + acc) with
        | none => .ub
        | some b => .ok { s with buf := b, written := fun g => if g = t * c.gs + l then true else s.written g }
      else .blocked
    | _ => .blocked

/-- Run a schedule; blocked choices are skipped; `none` = undefined behaviour. -/
def LBState.run (c : LBCfg) : LBState → List LBAct → Option LBState
  | s, [] => some s
  | s, a :: r =>
    match s.act c a with
    | .blocked => s.run c r
    | .ub => none
    | .ok s' => s'.run c r

/-- The kernel is over: every group finished and every result was stored. -/
def LBState.terminal (c : LBCfg) (s : LBState) : Prop := ∀ t < c.G, s.complete c t = true

/-- `ScanTile30bitint::pack` and `unpack`, scanDecoupledLookback.hpp:74-81. -/
def pack30 (a b : W32) : W32 := (a <<< 30) + b
/-- See `pack30`. -/
def unpack30 (s : W32) : W32 × W32 := (s >>> 30, s &&& ((1 <<< 30) - 1))

end Shamrock
