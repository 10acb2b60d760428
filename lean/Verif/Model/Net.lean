import Verif.Model.PatchTree
/-! Point to point MPI messaging, used by the models of the communication code (trusted specification of the MPI library, wrapped by
/repo/src/shamcomm/include/shamcomm/wrapper.hpp `Isend`, `Irecv`, `Probe`, `Waitall`). A message is identified by sender, receiver and tag;
it is in flight from the send until a matching receive takes it; matching messages are taken in the order they were sent (non overtaking);
otherwise ranks progress in any interleaving. Sends never block (`Isend`). -/
namespace Shamrock

/-- An `Isend`. -/
structure NSend (P : Type) where
  dst : Nat
  tag : Nat
  pay : P

/-- A receive (`Irecv`, or `Probe` followed by `Irecv`). -/
structure NRecv where
  src : Nat
  tag : Nat
deriving DecidableEq, Repr

/-- The sends and receives of one rank in one communication phase. -/
structure NProg (P : Type) where
  sends : List (NSend P)
  recvs : List NRecv

structure NMsg (P : Type) where
  src : Nat
  dst : Nat
  tag : Nat
  pay : P

/-- State of a phase: number of sends issued per rank, result of receive `k` of rank `r`, messages in flight. -/
structure NState (P : Type) where
  sent : Nat → Nat
  got : Nat → Nat → Option P
  flight : List (NMsg P)

def NState.init (P : Type) : NState P := ⟨fun _ => 0, fun _ _ => none, []⟩

/-- Does the message match receive `q` posted on rank `r`? -/
def NMsg.matches {P : Type} (m : NMsg P) (r : Nat) (q : NRecv) : Prop := m.src = q.src ∧ m.dst = r ∧ m.tag = q.tag

/-- One step of the system of `W` ranks. With `sendsFirst` a rank receives only after it issued all its sends (program order of
SchedulerPatchData.cpp:141-158); with `ordered` its receives complete in program order (blocking `Probe`), otherwise in any order
(`Irecv` + `Waitall`). -/
inductive NStep {P : Type} (W : Nat) (prog : Nat → NProg P) (sendsFirst ordered : Bool) : NState P → NState P → Prop where
  | send (s : NState P) (r : Nat) (m : NSend P) (hr : r < W) (hm : (prog r).sends[s.sent r]? = some m) :
      NStep W prog sendsFirst ordered s
        ⟨upd s.sent r (s.sent r + 1), s.got, s.flight ++ [⟨r, m.dst, m.tag, m.pay⟩]⟩
  | recv (s : NState P) (r k : Nat) (q : NRecv) (pre post : List (NMsg P)) (m : NMsg P) (hr : r < W)
      (hq : (prog r).recvs[k]? = some q) (hn : s.got r k = none)
      (hf : sendsFirst = true → s.sent r = (prog r).sends.length)
      (ho : ordered = true → ∀ j < k, (s.got r j).isSome)
      (hfl : s.flight = pre ++ m :: post) (hm : m.matches r q) (hpre : ∀ x ∈ pre, ¬ x.matches r q) :
      NStep W prog sendsFirst ordered s ⟨s.sent, upd s.got r (upd (s.got r) k (some m.pay)), pre ++ post⟩

/-- Finitely many steps, counted. -/
inductive NRun {P : Type} (W : Nat) (prog : Nat → NProg P) (sf ord : Bool) : Nat → NState P → Prop where
  | init : NRun W prog sf ord 0 (NState.init P)
  | step {n : Nat} {s s' : NState P} (h : NRun W prog sf ord n s) (hs : NStep W prog sf ord s s') : NRun W prog sf ord (n + 1) s'

/-- Every `Waitall` can return: all sends issued, all receives completed. -/
def NState.Final {P : Type} (W : Nat) (prog : Nat → NProg P) (s : NState P) : Prop :=
  ∀ r < W, s.sent r = (prog r).sends.length ∧ ∀ k < (prog r).recvs.length, (s.got r k).isSome

end Shamrock
