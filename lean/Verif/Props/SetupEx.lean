import Verif.Props.Setup
/-! C66: a concrete setup meeting the hypotheses, and the defects. -/
namespace Shamrock.Setup

/-- A counter as random engine. -/
def cxEng (e : Nat) : Nat × Nat := (e + 1, e * 7)

/-- Two combined lattices (one of them filtered and moved) and random particles. Particles are integers here. -/
def cxDesc : Desc Int Nat :=
  .combine (.modify (fun x => x + 1000) (.filter (fun x => x % 3 != 0) (.lattice true (fun i j k => i + 10 * j + 100 * k) (fun x => decide (0 ≤ x)) (-2, -1, 0) (3, 2, 2))))
    (.random 5 7 fun s => 5000 + (s : Int))

/-- Requests of two ranks that change from iteration to iteration. -/
def cxReqs (i : Nat) : List Nat := if i % 2 = 0 then [0, 5] else [3, 2]

theorem cx_reqs : Requests 2 (2 ^ cxDesc.depth) (some 6) cxReqs := by
  refine ⟨?_, ?_, ?_, ?_⟩
  · intro i; unfold cxReqs; split <;> rfl
  · intro i v hv; unfold cxReqs at hv; split at hv <;> simp at hv <;> omega
  · intro i; unfold cxReqs; split
    · exact ⟨5, by simp, by decide⟩
    · exact ⟨3, by simp, by decide⟩
  · rintro t h i v hv; cases h; unfold cxReqs at hv; split at hv <;> simp at hv <;> omega

theorem cx_ok : cxDesc.Ok := ⟨⟨by decide, by decide, by decide, by decide, by decide, by decide, by decide +kernel⟩, show 7 < 2 ^ 64 by decide⟩

example : ∃ n hist, cxDesc.build (2 ^ 33) 2 = some n ∧
    (∀ fuel, 37 < fuel → setupLoop cxEng (some 6) cxReqs fuel 0 n 0 = some (.ok (hist, 22))) ∧
    (pushed hist).map (·.1) = List.range 22 ∧ 5035 ∈ (pushed hist).map (·.2) := by
  have hp : (cxDesc.parts cxEng).length = 22 := by decide +kernel
  have ht : cxDesc.total = 37 := by decide +kernel
  obtain ⟨n, hist, h1, h2, h3, h4, _⟩ := C66_setup cxEng (2 ^ 33) le_rfl cxDesc cx_ok (by rw [ht]; decide) 2 (by decide) (by decide) (some 6) cxReqs cx_reqs
  rw [hp] at h2 h4
  rw [ht] at h2
  exact ⟨n, hist, h1, h2, h4, h3.mem_iff.2 (by decide +kernel)⟩

/-- A lattice of eight sites on three ranks, evaluated: the ids of the sites. -/
example : ∃ n : Node Int Nat, (Desc.lattice (E := Nat) false (fun i j k => i + 10 * j + 100 * k) (fun x => x != 10) (0, 0, 0) (2, 2, 2)).build 0 3 = some n ∧
    setupLoop cxEng none (fun _ => [1, 2, 0]) 9 0 n 0 =
      some (.ok ([[[(0, 0)], [(1, 1)], []], [[(2, 11)], [(3, 100), (4, 101)], []], [[(5, 110)], [(6, 111)], []]], 7)) := ⟨_, rfl, rfl⟩

/-! ### Defects -/

/-- A state the requests never leave is a loop without end. -/
theorem stuck {X E : Type} (eng : E → E × Nat) (reqs : List Nat) (outs : List (List X)) (n : Node X E) (h1 : allEq true n.isDone = false) (h2 : allEq false n.isDone = true)
    (h3 : n.nextN eng reqs = some (outs, n)) (fuel it inj : Nat) : setupLoop eng none (fun _ => reqs) fuel it n inj = none := by
  induction fuel generalizing it inj with
  | zero => rfl
  | succ fuel ih =>
    have hany : outs.any (tooMany (none : Option Nat)) = false := by simp [tooMany]
    rw [setupLoop, if_neg (by simp [h1]), if_pos h2, h3]
    simp only [hany, Bool.false_eq_true, if_false, ih]

/-- Two random sources of one particle each, combined. -/
def cxTwo : Desc Nat Nat := .combine (.random 0 1 fun s => s) (.random 3 1 fun s => s)

/-- **Defect.** A combiner gives its first parent `nmax / 2`: when every rank asks for one particle per step (`gen_step = max(crit_patch_split / 8, 1)` is 1
for a small `crit_patch_split`), the first parent is never asked for anything and the setup loops forever. -/
theorem C66_combiner_stuck_defect : cxTwo.Ok ∧ ∃ n, cxTwo.build 0 1 = some n ∧ ∀ fuel, setupLoop cxEng none (fun _ => [1]) fuel 0 n 0 = none := by
  refine ⟨⟨show 1 < 2 ^ 64 by decide, show 1 < 2 ^ 64 by decide⟩, _, rfl, ?_⟩
  intro fuel
  cases fuel with
  | zero => rfl
  | succ fuel =>
    have h1 : (Node.add (.rnd (List.replicate 1 (IPG.mk' 0 1)) fun s => s) (.rnd (List.replicate 1 (IPG.mk' 3 1)) fun s => s)).nextN cxEng [1] =
        some ([[21]], Node.add (.rnd [⟨0, 1, 0, false⟩] fun s => s) (.rnd [⟨4, 1, 1, true⟩] fun s => s)) := by
      simp [Node.nextN, Node.isDone, IPG.mk', allEq, IPG.nextPar, fetchView, accU64, u64add, u64sub, IPG.skip, IPG.nextSeq, engTake, engDiscard, cxEng]
    have h2 : (Node.add (.rnd [⟨0, 1, 0, false⟩] fun s => s) (.rnd [⟨4, 1, 1, true⟩] fun s => s)).nextN cxEng [1] =
        some ([[]], Node.add (.rnd [⟨0, 1, 0, false⟩] fun s => s) (.rnd [⟨4, 1, 1, true⟩] fun s => s)) := by
      simp [Node.nextN, Node.isDone, allEq, IPG.nextPar, fetchView, accU64, u64add, u64sub, IPG.skip, IPG.nextSeq, engTake, engDiscard, cxEng]
    rw [setupLoop, if_neg (by decide), if_pos (by decide), h1]
    simp only [stuck cxEng [1] [[]] _ rfl rfl h2]
    rfl

/-- **Defect.** `is_done` of the generator that copies another context is a property of the local rank: here rank 0 has one particle and rank 1 has two, each asks
for one per step; after one step rank 0 leaves the loop while rank 1 goes on into the collective operations alone. -/
theorem C66_context_defect (E : Type) (eng : E → E × Nat) (fuel : Nat) :
    setupLoop eng none (fun _ => [1, 1]) (fuel + 2) 0 (Node.ctx (E := E) [[(0, [10])], [(1, [20, 21])]]) 0 = some .ub := rfl

/-- **Defect.** With a combiner the ids depend on the number of ranks: four and four particles, four per step in total; on one rank the particle with id 1 is the
second one of the first parent, on two ranks it is the first one of the second parent. -/
theorem C66_order_defect : ∃ (d : Desc Nat Nat) (n n' : Node Nat Nat) (hist hist' : List (List (List (Nat × Nat)))), d.Ok ∧ d.build 0 1 = some n ∧ d.build 0 2 = some n' ∧
    setupLoop cxEng none (fun _ => [4]) 9 0 n 0 = some (.ok (hist, 8)) ∧ setupLoop cxEng none (fun _ => [2, 2]) 9 0 n' 0 = some (.ok (hist', 8)) ∧
    (1, 7) ∈ pushed hist ∧ (1, 70) ∈ pushed hist' ∧ ¬ (1, 7) ∈ pushed hist' := by
  refine ⟨.combine (.random 0 4 fun s => s) (.random 10 4 fun s => s), _, _, _, _, ⟨show 4 < 2 ^ 64 by decide, show 4 < 2 ^ 64 by decide⟩, rfl, rfl, rfl, rfl, ?_, ?_, ?_⟩ <;> decide

theorem engTake_length {E : Type} (eng : E → E × Nat) (n : Nat) (e : E) : (engTake eng n e).1.length = n := by
  induction n generalizing e with
  | zero => rfl
  | succ n ih => simp [engTake, ih]

/-- **Defect.** With the default `insert_step`, which is the `split_threshold` given to `push_patch_data` (both are `crit_patch_split * 8`), one rank and at least
that many random particles, the first step already throws "not implemented": `push_patch_data` wants strictly fewer particles than the threshold. -/
theorem C66_default_step_defect {X E : Type} (eng : E → E × Nat) (e : E) (f : Nat → X) (N thr : Nat) (h0 : 0 < thr) (hN : thr ≤ N) (hN2 : N < 2 ^ 64) (hu : thr < 2 ^ 32) (fuel : Nat) :
    ∃ n, (Desc.random e N f).build 0 1 = some n ∧ setupLoop eng (some thr) (fun _ => [thr]) (fuel + 1) 0 n 0 = some .throws := by
  refine ⟨_, rfl, ?_⟩
  have hmk : IPG.mk' e N = ipgAt eng e N 0 := by simp [IPG.mk', ipgAt, engDiscard, eq_comm]
  rw [hmk]
  have hsim := Sim.rnd (eng := eng) (R := 1) f e N 0 hN2 (Nat.zero_le _)
  have hd := sim_done eng 1 _ _ hsim
  have hdone : (Gen.src ((engSeg eng e 0 N).map f)).done = false := by
    simp only [Gen.done, List.isEmpty_eq_false_iff, ← List.length_pos_iff, List.length_map, engSeg_length]; omega
  obtain ⟨n', hn, _⟩ := sim_step eng 1 (by decide) _ _ hsim [thr] rfl (by simp only [List.sum_cons, List.sum_nil]; omega)
  rw [setupLoop, hd, allEq_replicate 1 (by decide), allEq_replicate 1 (by decide), hdone, if_neg (by simp), if_pos (by simp), hn]
  have hany : ((Gen.src ((engSeg eng e 0 N).map f)).step [thr]).1.any (tooMany (some thr)) = true := by
    simp only [Gen.step, dealOut, List.any_cons, tooMany, List.length_take, List.length_map, engSeg_length, List.any_nil, Bool.or_false, decide_eq_true_eq]
    omega
  simp only [hany, if_true]

end Shamrock.Setup
