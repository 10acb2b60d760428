import Verif.Model.Net
/-! Point to point exchange with a limit on the number of requests in flight, as in `sparse_exchange`
(shamalgs/src/collective/sparse_exchange.cpp:255-292 with shamalgs/collective/RequestList.hpp:90-117) and
`sparse_comm_allgather_isend_irecv` (shamalgs/src/collective/sparseXchg.cpp:441-560). Every rank walks over the same number of iterations; in
iteration `i` it may post one send and one receive; before going to the next iteration it spins until fewer than `lim` of its requests are
incomplete. The 120 s timeout of the spin is not modelled: progress is what makes it irrelevant. MPI is the trusted specification of Model/Net. -/
namespace Shamrock

/-- `Isend` and `Irecv` posted in one iteration. -/
structure XIter (P : Type) where
  send : Option (NSend P)
  recv : Option NRecv

/-- `pos r`: iterations started by rank `r`; `sdone r i`: its send of iteration `i` is complete; `taken r i`: that message was received;
`got r j`: result of its receive of iteration `j`. -/
structure XState (P : Type) where
  pos : Nat → Nat
  sdone : Nat → Nat → Bool
  taken : Nat → Nat → Bool
  got : Nat → Nat → Option P

def XState.init (P : Type) : XState P := ⟨fun _ => 0, fun _ _ => false, fun _ _ => false, fun _ _ => none⟩

/-- Requests of rank `r` still incomplete (RequestList.hpp:73-76 `remain_count`). -/
def XState.inflight {P : Type} (prog : Nat → Nat → XIter P) (s : XState P) (r : Nat) : Nat :=
  ((List.range (s.pos r)).filter fun i => (prog r i).send.isSome && !s.sdone r i).length +
  ((List.range (s.pos r)).filter fun i => (prog r i).recv.isSome && (s.got r i).isNone).length

/-- One step of `W` ranks making `n` iterations. `buf`: MPI may complete a send before it is received (otherwise never: the worst case). -/
inductive XStep {P : Type} (W n lim : Nat) (buf : Bool) (prog : Nat → Nat → XIter P) : XState P → XState P → Prop where
  | iter (s : XState P) (r : Nat) (hr : r < W) (hp : s.pos r < n) (hl : s.inflight prog r < lim) :
      XStep W n lim buf prog s ⟨upd s.pos r (s.pos r + 1), s.sdone, s.taken, s.got⟩
  | recv (s : XState P) (r i r' j : Nat) (m : NSend P) (q : NRecv) (hr : r < W) (hr' : r' < W) (hi : i < s.pos r) (hj : j < s.pos r')
      (hm : (prog r i).send = some m) (hq : (prog r' j).recv = some q) (ht : s.taken r i = false) (hg : s.got r' j = none)
      (hd : m.dst = r') (hs : q.src = r) (htag : m.tag = q.tag)
      (hno : ∀ i' < i, ∀ m', (prog r i').send = some m' → m'.dst = r' → m'.tag = q.tag → s.taken r i' = true) :
      XStep W n lim buf prog s
        ⟨s.pos, s.sdone, upd s.taken r (upd (s.taken r) i true), upd s.got r' (upd (s.got r') j (some m.pay))⟩
  | sendDone (s : XState P) (r i : Nat) (m : NSend P) (hr : r < W) (hi : i < s.pos r) (hm : (prog r i).send = some m) (hd : s.sdone r i = false)
      (hb : s.taken r i = true ∨ buf = true) :
      XStep W n lim buf prog s ⟨s.pos, upd s.sdone r (upd (s.sdone r) i true), s.taken, s.got⟩

inductive XRun {P : Type} (W n lim : Nat) (buf : Bool) (prog : Nat → Nat → XIter P) : Nat → XState P → Prop where
  | init : XRun W n lim buf prog 0 (XState.init P)
  | step {k : Nat} {s s' : XState P} (h : XRun W n lim buf prog k s) (hs : XStep W n lim buf prog s s') : XRun W n lim buf prog (k + 1) s'

/-- `wait_all` returns on every rank. -/
def XState.Final {P : Type} (W n : Nat) (prog : Nat → Nat → XIter P) (s : XState P) : Prop :=
  ∀ r < W, s.pos r = n ∧ ∀ i < n, ((prog r i).send.isSome → s.sdone r i = true) ∧ ((prog r i).recv.isSome → (s.got r i).isSome)

end Shamrock
