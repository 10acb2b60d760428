import Verif.Proof.Events
/-! Property C43: event tracking of device buffers. -/
namespace Shamrock

/-- C43: in every execution, for any two accesses to a buffer of which at least one writes: when any task of the later operation has been
started by the device, every task of the earlier operation has finished. -/
theorem C43_conflicts_ordered (w : EvWorld) (h : EvReach w) (b i j A B : Nat) (wa wb : Bool) (hij : i < j)
    (hi : (w.hist b)[i]? = some (A, wa)) (hj : (w.hist b)[j]? = some (B, wb)) (hc : wa = true ∨ wb = true)
    (e f : Nat) (he : e ∈ w.tasks A) (hf : f ∈ w.tasks B) (hs : w.started f = true) : w.done e = true := by
  have H := h.inv
  rcases H.conf b i j A wa B wb hij hi hj hc e he with hd | ⟨g, g1, g2⟩
  · exact hd
  · rw [← H.tk B f hf] at g1
    exact waits_done H g2 ((H.ss f hs).2 g g1)

/-- C43: an access requested while another one is pending on the buffer throws, whatever is requested and whatever the status queries
answer; with no access pending it succeeds, and `complete_state` without a pending access throws. -/
theorem C43_incomplete_state_throws (w : EvWorld) (h : EvReach w) (b : Nat) (seen : Nat → Bool) :
    (w.holder b ≠ none → ∀ write dl, (w.buf b).access write seen dl = .throws) ∧
    (w.holder b = none → (∀ write dl, ∃ r, (w.buf b).access write seen dl = .ok r) ∧ ∀ ev, (w.buf b).completeState seen ev = .throws) ∧
    (w.holder b ≠ none → ∀ ev, ∃ r, (w.buf b).completeState seen ev = .ok r) := by
  have hh := h.inv.hold b
  refine ⟨fun hn write dl => ?_, fun hn => ⟨fun write dl => ?_, fun ev => ?_⟩, fun hn ev => ?_⟩
  · have hu : (w.buf b).upToDate = false := by
      rw [hh]; cases hx : w.holder b with
      | none => exact absurd hx hn
      | some a => rfl
    cases write <;> simp [BufH.access, BufH.readAccess, BufH.writeAccess, hu]
  · rw [hn] at hh
    cases write <;> simp [BufH.access, BufH.readAccess, BufH.writeAccess, hh]
  · rw [hn] at hh
    simp [BufH.completeState, hh]
  · have hu : (w.buf b).upToDate = false := by
      rw [hh]; cases hx : w.holder b with
      | none => exact absurd hx hn
      | some a => rfl
    unfold BufH.completeState
    rw [if_neg (by rw [hu]; simp)]
    simp only
    split <;> exact ⟨_, rfl⟩

/-- C43: the dependencies never block the device: as long as a submitted task is unfinished, some unfinished task has only finished
dependencies. -/
theorem C43_no_deadlock (w : EvWorld) (h : EvReach w) (e : Nat) (hu : w.done e = false) :
    ∃ f, f ≤ e ∧ w.done f = false ∧ ∀ d ∈ w.tdeps f, w.done d = true := by
  have H := h.inv
  have key : ∀ m x, x ≤ m → w.done x = false → ∃ f, f ≤ x ∧ w.done f = false ∧ ∀ d ∈ w.tdeps f, w.done d = true := by
    intro m
    induction m with
    | zero =>
      intro x hx hd
      refine ⟨x, Nat.le_refl _, hd, fun d hdm => ?_⟩
      have := (H.rTd x d hdm).1; omega
    | succ m ih =>
      intro x hx hd
      by_cases hall : ∀ d ∈ w.tdeps x, w.done d = true
      · exact ⟨x, Nat.le_refl _, hd, hall⟩
      · obtain ⟨d, hd⟩ := Classical.not_forall.1 hall
        obtain ⟨hd1, hd2⟩ := Classical.not_imp.1 hd
        have hlt := (H.rTd x d hd1).1
        obtain ⟨f, f1, f2⟩ := ih d (by omega) (by simpa using hd2)
        exact ⟨f, by omega, f2⟩
  exact key e e (Nat.le_refl _) hu

/-- The dependencies of a write access contain all tracked events: a write, two reads, then a write on the same buffer. -/
example : ((((BufH.init true).access true (fun _ => false) []).bind fun r => (r.1.completeState (fun _ => false) [0]).bind fun h =>
    (h.access false (fun _ => false) []).bind fun r => (r.1.completeState (fun _ => false) [1]).bind fun h =>
    (h.access false (fun _ => false) []).bind fun r => (r.1.completeState (fun _ => false) [2]).bind fun h =>
    (h.access true (fun e => e == 1) [9]).bind fun r => .ok r.2)) = .ok [9, 0, 2] := by decide

/-- An execution with two conflicting operations whose hypotheses are met: operation 0 writes buffer 0, operation 1 reads it and its task has
started. -/
example : ∃ w, EvReach w ∧ (w.hist 0)[0]? = some (0, true) ∧ (w.hist 0)[1]? = some (1, false) ∧ w.tasks 0 = [0] ∧ w.tasks 1 = [1] ∧
    w.started 1 = true ∧ w.tdeps 1 = [0] := by
  have s0 := EvReach.init (fun _ => true)
  have s1 := s0.step (EvStep.access 0 0 true (fun _ => false) _ _ rfl rfl (fun e h => by cases h) rfl)
  have s2 := s1.step (EvStep.submit 0 rfl)
  have s3 := s2.step (EvStep.complete 0 0 (fun _ => false) [0] _ rfl (fun e h => by cases h) (by decide) (by decide) (Or.inl (by decide)) rfl)
  have s4 := s3.step (EvStep.access 1 0 false (fun _ => false) _ _ rfl rfl (fun e h => by cases h) rfl)
  have s5 := s4.step (EvStep.submit 1 rfl)
  have s6 := s5.step (EvStep.start 0 (by decide) (by decide))
  have s7 := s6.step (EvStep.finish 0 rfl)
  have s8 := s7.step (EvStep.start 1 (by decide) (by decide))
  exact ⟨_, s8, rfl, rfl, rfl, rfl, rfl, rfl⟩

end Shamrock
