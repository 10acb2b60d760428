import Verif.Model.SelfGrav
/-!
Self gravity of an SPH patch by the direct sum (`SGDirectPlummer`): the reference loop on the host, and the tiled kernel with a scratch
memory per work group and barriers. Arithmetic is over the reals; a value that would be infinite or NaN is `none`, which is not an error.
-/
namespace Shamrock.SelfGrav

open Shamrock (V3)
open Shamrock.Fmm

noncomputable section

/-- `force += w * r_inv * r_inv * r_inv * R` with `R = xj - xi`,
/repo/src/shammodels/sph/src/modules/self_gravity/SGDirectPlummer.cpp:55-59, 108-119. `rsqrt(0)` times the zero vector is NaN. -/
def addTerm (eps2 w : ℝ) (xi xj : V3 ℝ) (f : Option (V3 ℝ)) : Option (V3 ℝ) :=
  f.bind fun f =>
    let R := xj - xi
    let r2 := R.x * R.x + R.y * R.y + R.z * R.z + eps2
    if r2 = 0 then none
    else
      let rinv := 1 / Real.sqrt r2
      some (axpy f (w * rinv * rinv * rinv) R)

/-- `axyz_ext[i] += force * G`, SGDirectPlummer.cpp:61, 126. -/
def addForce (G : ℝ) (a f : Option (V3 ℝ)) : Option (V3 ℝ) := a.bind fun a => f.map fun f => axpy a G f

/-- The loop on `j` of the reference mode for particle `i`, SGDirectPlummer.cpp:49-60; the outer `none` = out of bounds. -/
def refForce (pos : List (V3 ℝ)) (n : Nat) (m eps2 : ℝ) (i : Nat) : Option (Option (V3 ℝ)) := do
  let xi ← pos[i]?
  (List.range n).foldlM (fun f j => if i = j then some f else (pos[j]?).map fun xj => addTerm eps2 m xi xj f) (some ⟨0, 0, 0⟩)

/-- The reference mode, SGDirectPlummer.cpp:44-64: `n` particles. -/
def sgDirectRef (pos : List (V3 ℝ)) (n : Nat) (G m eps : ℝ) (acc : List (Option (V3 ℝ))) : Option (List (Option (V3 ℝ))) :=
  (List.range n).foldlM (fun acc i => do
    let f ← refForce pos n m (eps * eps) i
    let a ← acc[i]?
    wr acc i (addForce G a f)) acc

/-- `group_count(n, 32)`, SGDirectPlummer.cpp:68-69, in `u32`. -/
def groupCount (n : Nat) : Nat := (n + 31) % 2 ^ 32 / 32

/-- A work item: its program counter and its `force`. -/
structure DirItem where
  pc : Nat
  force : Option (V3 ℝ)

/-- The device: the work items by global id (32 consecutive ones are a group), the scratch memories of the groups one after the other
(entry `local_id` of group `g` is at `32 g + local_id`), and the accelerations. -/
structure DirState where
  items : List DirItem
  scratch : List (V3 ℝ × ℝ)
  acc : List (Option (V3 ℝ))

/-- What a work item stores for the particle `j`, SGDirectPlummer.cpp:98-103. -/
def tileEntry (pos : List (V3 ℝ)) (n : Nat) (m : ℝ) (j : Nat) : Option (V3 ℝ × ℝ) :=
  if j < n then (pos[j]?).map fun x => (x, m) else some (⟨0, 0, 0⟩, 0)

/-- `my_particle`, SGDirectPlummer.cpp:93-94. -/
def itemPos (pos : List (V3 ℝ)) (n gid : Nat) : Option (V3 ℝ) := if gid < n then pos[gid]? else some ⟨0, 0, 0⟩

/-- All the items of the group have reached the statement `pc` (`sycl::group_barrier`). -/
def allReached (s : DirState) (group pc : Nat) : Bool :=
  (List.range 32).all fun l => match s.items[32 * group + l]? with
    | none => true
    | some o => decide (pc ≤ o.pc)

/-- The next statement of work item `gid`, SGDirectPlummer.cpp:87-128. The loop body for one tile has 35 statements: the store, the
barrier, the 32 interactions, the barrier; one more statement writes the acceleration. At a barrier the item waits until all the items of
its group have reached it. `none` = access out of bounds. -/
def dStep (pos : List (V3 ℝ)) (n : Nat) (G m eps2 : ℝ) (s : DirState) (gid : Nat) : Option DirState := do
  let it ← s.items[gid]?
  let tile := it.pc / 35
  let r := it.pc % 35
  if 32 * tile < n then
    if r = 0 then
      let e ← tileEntry pos n m (32 * tile + gid % 32)
      let sc ← wr s.scratch gid e
      pure { s with items := s.items.set gid ⟨it.pc + 1, it.force⟩, scratch := sc }
    else if r = 1 ∨ r = 34 then
      if allReached s (gid / 32) it.pc then
        pure { s with items := s.items.set gid ⟨it.pc + 1, it.force⟩ }
      else pure s
    else
      let me ← itemPos pos n gid
      let p ← s.scratch[32 * (gid / 32) + (r - 2)]?
      let f := if gid = 32 * tile + (r - 2) then it.force else addTerm eps2 p.2 me p.1 it.force
      pure { s with items := s.items.set gid ⟨it.pc + 1, f⟩ }
  else if r = 0 then
    if gid < n then
      let a ← s.acc[gid]?
      let acc ← wr s.acc gid (addForce G a it.force)
      pure { s with items := s.items.set gid ⟨it.pc + 1, it.force⟩, acc := acc }
    else pure { s with items := s.items.set gid ⟨it.pc + 1, it.force⟩ }
  else pure s

/-- The launch: every item at its first statement with force 0; the content of the scratch memory is arbitrary. -/
def dStart (n : Nat) (scratch : List (V3 ℝ × ℝ)) (acc : List (Option (V3 ℝ))) : DirState :=
  ⟨List.replicate (32 * groupCount n) ⟨0, some ⟨0, 0, 0⟩⟩, scratch, acc⟩

/-- An execution: `sched` tells which item executes its next statement. -/
def dRun (pos : List (V3 ℝ)) (n : Nat) (G m eps : ℝ) (sched : List Nat) (s : DirState) : Option DirState :=
  sched.foldlM (dStep pos n G m (eps * eps)) s

/-- Work item `it` has executed its last statement. -/
def DirItem.done (n : Nat) (it : DirItem) : Prop := it.pc = 35 * groupCount n + 1

end

end Shamrock.SelfGrav
