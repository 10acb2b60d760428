import Verif.Model.Scan
/-! The single pass scan with the parallel look-back, /repo/src/shamalgs/include/shamalgs/details/numeric/scanDecoupledLookback.hpp:648-797
(`exclusive_sum_atomic_decoupled_v6<T, group_size, thread_counts>`, `T = u32`). -/
namespace Shamrock

/-- A launch: `gs` = `group_size`, `tc` = `thread_counts`, `G` = the number of groups, `K` = how many groups can be resident on the device at once. -/
structure L6Cfg where
  len : Nat
  gs : Nat
  tc : Nat
  G : Nat
  K : Nat
  inp : List W32

/-- Number of groups launched, scanDecoupledLookback.hpp:651-654 (`group_count` is C29's rounded up division). -/
def l6Groups (len gs : Nat) : Nat := let g := (len + gs - 1) / gs; g + g % 4

/-- Program counter of a group; `posted`: lane 0 has made its store (there is no barrier after it, so the other lanes may run ahead). -/
inductive L6Pc where
  | idle
  | loading
  | look (ptr : Nat) (acc : W32) (posted : Bool)
  | out (acc : W32) (posted : Bool)
deriving DecidableEq, Repr

/-- Device state: as `LBState`; `reads t l` is the register `tile_state` of lane `l` of group `t` in the current round of the loop. -/
structure L6State where
  pc : Nat → L6Pc
  regs : Nat → Nat → Option W32
  reads : Nat → Nat → Option (W32 × W32)
  tiles : List (BitVec 64)
  buf : List W32
  written : Nat → Bool

/-- All tiles `pack32(STATE_X, 0)`, :669. -/
def L6State.init (c : L6Cfg) (out0 : List W32) : L6State :=
  { pc := fun _ => .idle, regs := fun _ _ => none, reads := fun _ _ => none, tiles := List.replicate c.G (pack32 0 0), buf := out0, written := fun _ => false }

inductive L6Act where
  /-- group `t` becomes resident -/
  | start (t : Nat)
  /-- lane `l` of group `t` loads its input -/
  | load (t l : Nat)
  /-- group scan and barrier -/
  | barrier (t : Nat)
  /-- lane 0 of group `t` stores its tile -/
  | post (t : Nat)
  /-- lane `l` of group `t` makes one attempt to read its tile -/
  | read (t l : Nat)
  /-- the group reductions at the end of a round of the loop -/
  | reduce (t : Nat)
  /-- lane `l` of group `t` stores its result -/
  | write (t l : Nat)
deriving DecidableEq, Repr

inductive L6Res where
  | blocked
  | ub
  | ok (s : L6State)

/-- All lanes of the group are done. -/
def L6State.complete (c : L6Cfg) (s : L6State) (t : Nat) : Bool :=
  (match s.pc t with | .out _ p => p | _ => false) && (List.range c.gs).all (fun l => decide (c.len ≤ t * c.gs + l) || s.written (t * c.gs + l))

/-- Number of groups on the device. -/
def L6State.resident (c : L6Cfg) (s : L6State) : Nat :=
  ((List.range c.G).filter (fun t => decide (s.pc t ≠ .idle) && !s.complete c t)).length

/-- `reduce_over_group(…, plus)` of the values of the first `n` lanes; with the loaded values also the group scan. -/
def redAdd (f : Nat → W32) : Nat → W32
  | 0 => 0
  | n + 1 => redAdd f n + f n

/-- `reduce_over_group(…, minimum)` of the values of the first `n` lanes. -/
def redMin (f : Nat → Nat) : Nat → Nat
  | 0 => 2 ^ 32 - 1
  | n + 1 => min (redMin f n) (f n)

def L6State.setPc (s : L6State) (t : Nat) (p : L6Pc) : L6State := { s with pc := fun k => if k = t then p else s.pc k }

/-- Value loaded by lane `l` of group `t`. -/
def L6State.reg (s : L6State) (t l : Nat) : W32 := (s.regs t l).getD 0
/-- `tile_state` of lane `l` of group `t`. -/
def L6State.rd (s : L6State) (t l : Nat) : W32 × W32 := (s.reads t l).getD (0, 0)

/-- The end of a round, :748-778. -/
def L6State.round (c : L6Cfg) (s : L6State) (t ptr : Nat) (acc : W32) (posted : Bool) : L6State :=
  let sumState := redAdd (fun l => (s.rd t l).1) c.gs
  if c.gs < sumState.toNat then
    let lastP := redMin (fun l => if (s.rd t l).1 = 2 then l else c.gs) c.gs
    s.setPc t (.out (acc + redAdd (fun l => if l ≤ lastP then (s.rd t l).2 else 0) c.gs) false)
  else
    let acc' := acc + redAdd (fun l => (s.rd t l).2) c.gs
    if c.tc ≤ ptr then { s with reads := fun k l => if k = t then none else s.reads k l }.setPc t (.look (u32sub ptr c.tc) acc' posted)
    else s.setPc t (.out acc' false)

/-- All actions. Loads: :697 (`global_id > 0 && global_id < len ? in[global_id - 1] : 0`). Reads: :734-744. Stores: :721-725, :783-786. Result: :789-791. -/
def L6State.act (c : L6Cfg) (s : L6State) : L6Act → L6Res
  | .start t => if t < c.G ∧ s.pc t = .idle ∧ s.resident c < c.K then .ok (s.setPc t .loading) else .blocked
  | .load t l =>
    if t < c.G ∧ l < c.gs ∧ s.pc t = .loading ∧ s.regs t l = none then
      if 0 < t * c.gs + l ∧ t * c.gs + l < c.len then
        match c.inp[t * c.gs + l - 1]? with
        | none => .ub
        | some v => .ok { s with regs := fun t' l' => if t' = t ∧ l' = l then some v else s.regs t' l' }
      else .ok { s with regs := fun t' l' => if t' = t ∧ l' = l then some 0 else s.regs t' l' }
    else .blocked
  | .barrier t =>
    if t < c.G ∧ s.pc t = .loading ∧ ∀ l < c.gs, s.regs t l ≠ none then
      .ok (s.setPc t (if t ≠ 0 then .look (u32sub t 1) 0 false else .out 0 false))
    else .blocked
  | .post t =>
    if t < c.G then
      match s.pc t with
      | .look ptr acc false =>
        match wr s.tiles t (pack32 1 (redAdd (s.reg t) c.gs)) with
        | none => .ub
        | some ts => .ok ({ s with tiles := ts }.setPc t (.look ptr acc true))
      | .out acc false =>
        match wr s.tiles t (pack32 2 (acc + redAdd (s.reg t) c.gs)) with
        | none => .ub
        | some ts => .ok ({ s with tiles := ts }.setPc t (.out acc true))
      | _ => .blocked
    else .blocked
  | .read t l =>
    match s.pc t with
    | .look ptr _ posted =>
      if t < c.G ∧ l < c.gs ∧ s.reads t l = none ∧ (l = 0 → posted = true) then
        if l < c.tc ∧ l ≤ ptr then
          match s.tiles[ptr - l]? with
          | none => .ub
          | some v => if (unpack32 v).1 = 0 then .ok s else .ok { s with reads := fun t' l' => if t' = t ∧ l' = l then some (unpack32 v) else s.reads t' l' }
        else .ok { s with reads := fun t' l' => if t' = t ∧ l' = l then some (1, 0) else s.reads t' l' }
      else .blocked
    | _ => .blocked
  | .reduce t =>
    match s.pc t with
    | .look ptr acc posted => if t < c.G ∧ ∀ l < c.gs, s.reads t l ≠ none then .ok (s.round c t ptr acc posted) else .blocked
    | _ => .blocked
  | .write t l =>
    match s.pc t with
    | .out acc posted =>
      if t < c.G ∧ l < c.gs ∧ t * c.gs + l < c.len ∧ s.written (t * c.gs + l) = false ∧ (l = 0 → posted = true) then
        match wr s.buf (t * c.gs + l) (acc + redAdd (s.reg t) (l + 1)) with
        | none => .ub
        | some b => .ok { s with buf := b, written := fun g => if g = t * c.gs + l then true else s.written g }
      else .blocked
    | _ => .blocked

/-- Run a schedule; blocked choices are skipped; `none` = undefined behaviour. -/
def L6State.run (c : L6Cfg) : L6State → List L6Act → Option L6State
  | s, [] => some s
  | s, a :: r =>
    match s.act c a with
    | .blocked => s.run c r
    | .ub => none
    | .ok s' => s'.run c r

def L6State.terminal (c : L6Cfg) (s : L6State) : Prop := ∀ t < c.G, s.complete c t = true

end Shamrock
