import Verif.Model.Res
/-! Event tracking of device buffers: /repo/src/shambackends/src/details/BufferEventHandler.cpp. Events are numbered; `seen e` is the answer
of `event.get_info<command_execution_status>() == complete`. -/
namespace Shamrock

/-- `BufferEventHandler`, /repo/src/shambackends/include/shambackends/details/BufferEventHandler.hpp:40-105 (`lastW`: `last_access == WRITE`;
the source locations used in messages are left out). -/
structure BufH where
  readEv : List Nat
  writeEv : List Nat
  lastW : Bool
  upToDate : Bool
  deriving DecidableEq, Repr

/-- A new handler (`last_access` is not initialised; no access is pending). BufferEventHandler.hpp:88-97. -/
def BufH.init (junk : Bool) : BufH := ⟨[], [], junk, true⟩

/-- `filter_events`, BufferEventHandler.cpp:26-49. -/
def BufH.filter (h : BufH) (seen : Nat → Bool) : BufH :=
  { h with readEv := h.readEv.filter (fun e => !seen e), writeEv := h.writeEv.filter (fun e => !seen e) }

/-- `read_access`, BufferEventHandler.cpp:51-74; `dl` is the caller's `depends_list`. -/
def BufH.readAccess (h : BufH) (seen : Nat → Bool) (dl : List Nat) : Res (BufH × List Nat) :=
  if h.upToDate = false then .throws
  else
    let h := h.filter seen
    let h := { h with upToDate := false, lastW := false }
    .ok (h, dl ++ h.writeEv)

/-- `write_access`, BufferEventHandler.cpp:76-102. -/
def BufH.writeAccess (h : BufH) (seen : Nat → Bool) (dl : List Nat) : Res (BufH × List Nat) :=
  if h.upToDate = false then .throws
  else
    let h := h.filter seen
    let h := { h with upToDate := false, lastW := true }
    .ok (h, (dl ++ h.writeEv) ++ h.readEv)

/-- `complete_state`, BufferEventHandler.cpp:108-142. -/
def BufH.completeState (h : BufH) (seen : Nat → Bool) (events : List Nat) : Res BufH :=
  if h.upToDate = true then .throws
  else
    let h := h.filter seen
    if h.lastW = false then .ok { h with readEv := h.readEv ++ events, upToDate := true }
    else .ok { h with writeEv := events, readEv := [], upToDate := true }

/-- `wait_all`, BufferEventHandler.hpp:67-73: waits for the events (see `EvStep.waitAll`) and forgets them. -/
def BufH.waitAll (h : BufH) : BufH := { h with readEv := [], writeEv := [] }

/-- The access an operation asks for. -/
def BufH.access (h : BufH) (write : Bool) (seen : Nat → Bool) (dl : List Nat) : Res (BufH × List Nat) :=
  if write then h.writeAccess seen dl else h.readAccess seen dl

/-- A program using buffers on an out of order device. Operation `o` requests accesses on buffers with one `depends_list` (`deps o`), then
submits device tasks (one event each, depending on the whole list), then calls `complete_state` on its buffers. `started`/`done` describe
the device. -/
structure EvWorld where
  buf : Nat → BufH
  deps : Nat → List Nat
  tasks : Nat → List Nat
  tdeps : Nat → List Nat
  started : Nat → Bool
  done : Nat → Bool
  nextEv : Nat
  closed : Nat → Bool
  holder : Nat → Option Nat
  hist : Nat → List (Nat × Bool)

def updF {V : Type} (f : Nat → V) (k : Nat) (v : V) : Nat → V := fun x => if x = k then v else f x

def EvWorld.init (junk : Nat → Bool) : EvWorld :=
  ⟨fun b => BufH.init (junk b), fun _ => [], fun _ => [], fun _ => [], fun _ => false, fun _ => false, 0, fun _ => false, fun _ => none, fun _ => []⟩

/-- The status query never reports an unfinished event as complete (it may lag behind). -/
def EvWorld.honest (w : EvWorld) (seen : Nat → Bool) : Prop := ∀ e, seen e = true → w.done e = true

/-- The steps of host and device, in any interleaving. The conditions on the host steps are what using the API correctly means:
accesses are requested before tasks are submitted and before `complete_state`; a submitted task depends on the whole `depends_list`
(`EventList::apply_dependency`, EventList.hpp:50); the events given to `complete_state` contain all unfinished tasks of the operation; and
the `depends_list` was consumed, by a task or by waiting (`~EventList` throws otherwise). -/
inductive EvStep : EvWorld → EvWorld → Prop
  | access {w : EvWorld} (o b : Nat) (write : Bool) (seen : Nat → Bool) (h : BufH) (dl : List Nat) :
      w.tasks o = [] → w.closed o = false → w.honest seen → (w.buf b).access write seen (w.deps o) = .ok (h, dl) →
      EvStep w { w with buf := updF w.buf b h, deps := updF w.deps o dl, holder := updF w.holder b (some o),
                        hist := updF w.hist b (w.hist b ++ [(o, write)]) }
  | submit {w : EvWorld} (o : Nat) : w.closed o = false →
      EvStep w { w with tasks := updF w.tasks o (w.tasks o ++ [w.nextEv]), tdeps := updF w.tdeps w.nextEv (w.deps o), nextEv := w.nextEv + 1 }
  | start {w : EvWorld} (e : Nat) : e < w.nextEv → (∀ d ∈ w.tdeps e, w.done d = true) → EvStep w { w with started := updF w.started e true }
  | finish {w : EvWorld} (e : Nat) : w.started e = true → EvStep w { w with done := updF w.done e true }
  | complete {w : EvWorld} (o b : Nat) (seen : Nat → Bool) (events : List Nat) (h : BufH) :
      w.holder b = some o → w.honest seen → (∀ e ∈ events, e < w.nextEv) → (∀ e ∈ w.tasks o, w.done e = true ∨ e ∈ events) →
      (w.tasks o ≠ [] ∨ ∀ d ∈ w.deps o, w.done d = true) → (w.buf b).completeState seen events = .ok h →
      EvStep w { w with buf := updF w.buf b h, closed := updF w.closed o true, holder := updF w.holder b none }
  | waitAll {w : EvWorld} (b : Nat) : (∀ e ∈ (w.buf b).readEv ++ (w.buf b).writeEv, w.done e = true) →
      EvStep w { w with buf := updF w.buf b (w.buf b).waitAll }

inductive EvReach : EvWorld → Prop
  | init (junk : Nat → Bool) : EvReach (EvWorld.init junk)
  | step {w w' : EvWorld} : EvReach w → EvStep w w' → EvReach w'

end Shamrock
