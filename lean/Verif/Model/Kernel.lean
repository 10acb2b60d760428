import Verif.Model.Search
/-! Execution of a device kernel: the work items of one launch are programs made of atomic steps on a shared buffer and a
private state; a launch interleaves them arbitrarily (SYCL gives no order between work items of one `parallel_for`). -/
namespace Shamrock

/-- An atomic step of a work item: private state and shared buffer before → after; `none` = undefined behaviour. -/
abbrev KStep (L α : Type) := L → List α → Option (L × List α)

/-- A work item running alone. -/
def itemRun {L α : Type} : List (KStep L α) → L → List α → Option (L × List α)
  | [], l, m => some (l, m)
  | s :: r, l, m => do
    let (l', m') ← s l m
    itemRun r l' m'

/-- State of a launch: remaining program and private state of each item, and the shared buffer. -/
structure KState (L α : Type) where
  rem : Nat → List (KStep L α)
  loc : Nat → L
  mem : List α

/-- Let item `t` do its next step (nothing if it is finished). -/
def KState.step {L α : Type} (st : KState L α) (t : Nat) : Option (KState L α) :=
  match st.rem t with
  | [] => some st
  | s :: r => do
    let (l', m') ← s (st.loc t) st.mem
    pure { rem := fun k => if k = t then r else st.rem k, loc := fun k => if k = t then l' else st.loc k, mem := m' }

/-- Follow a schedule (sequence of item ids). -/
def KState.exec {L α : Type} : List Nat → KState L α → Option (KState L α)
  | [], st => some st
  | t :: r, st => do
    let st' ← st.step t
    KState.exec r st'

/-- A schedule that lets every item run to its end, one after the other. -/
def drain {L α : Type} (prog : Nat → List (KStep L α)) (n : Nat) : List Nat :=
  (List.range n).flatMap (fun t => List.replicate (prog t).length t)

/-- A launch of `n` work items (`sham::kernel_call` / `parallel_for`), scheduled by `sched`, items left unfinished by `sched`
being completed afterwards (so every interleaving is the effect of some `sched`). -/
def kLaunch {L α : Type} (n : Nat) (prog : Nat → List (KStep L α)) (l0 : L) (sched : List Nat) (m : List α) :
    Option (List α) :=
  (KState.exec (sched ++ drain prog n) ⟨fun t => if t < n then prog t else [], fun _ => l0, m⟩).map (·.mem)

end Shamrock
