import Verif.Props.SchedEx
import Verif.Props.BalLoad
/-! C42: a concrete case for the balancing loop. -/
namespace Shamrock

/-- As `sxEnv`; patches with more than one object are split. -/
def syEnv : SchedEnv (V3 Int) Int := { sxEnv with critSplit := 1, critMerge := 0 }

def sy2 : Sched (V3 Int) := { sx1 with data := fun r => if r = 0 then [(0, [⟨1, [⟨0, 0, 0⟩, ⟨7, 7, 7⟩]⟩])] else [] }

theorem syEnv_ok : EnvOk syEnv ⟨0, 0, 0⟩ :=
  ⟨⟨by decide, by decide⟩, fun _ _ _ => goodOrder_id,
    ⟨roundedArith, ⟨7, 7, 7⟩, ⟨-5, 0, 0⟩, ⟨by show (0 : Int) ≤ 7; omega, by show (0 : Int) ≤ 7; omega, by show (0 : Int) ≤ 7; omega⟩, rfl⟩⟩

theorem sy1_hist : SchedHist syEnv sxLB ⟨0, 0, 0⟩ 2 sx1 :=
  SchedHist.startSync [sxRoot] sx0 (fun _ l => l) (fun _ _ => List.Perm.refl _) (fun c hc => by rw [List.mem_singleton.1 hc]; exact sxRoot_ok) (by decide) sx0_ok

theorem sy_data (r : Nat) : sy2.data r = if r = 0 then [(0, [⟨1, [⟨0, 0, 0⟩, ⟨7, 7, 7⟩]⟩])] else [] := rfl

theorem sy2_hist : SchedHist syEnv sxLB ⟨0, 0, 0⟩ 2 sy2 := by
  have h := C37_history syEnv sxLB ⟨0, 0, 0⟩ syEnv_ok 2 (by omega) (by omega) sx1 sy1_hist
  refine SchedHist.data sx1 _ sy1_hist ⟨h.forest, h.list, h.inj, h.loc, ?_, ?_⟩
  · intro r hr p hp
    have h0 : sx1.locals 0 = [⟨0, u64max, 0, sxRoot, 0⟩] := by decide +kernel
    have h1 : sx1.locals 1 = [] := by decide +kernel
    have hp' : p ∈ sx1.locals r := hp
    have hr' : r = 0 := by
      by_contra hne
      have : r = 1 := by omega
      rw [this, h1] at hp'
      cases hp'
    subst hr'
    rw [h0, List.mem_singleton] at hp'
    subst hp'
    refine ⟨[⟨1, [⟨0, 0, 0⟩, ⟨7, 7, 7⟩]⟩], rfl, ⟨rfl, 2, ?_⟩, ?_⟩
    · intro f hf
      rw [List.mem_singleton] at hf
      subst hf
      exact ⟨⟨by show 0 < 1; omega, ⟨2, rfl⟩, by show 2 < 2 ^ 32; omega⟩, rfl⟩
    · intro o ho
      have he : o ∈ [[[(⟨0, 0, 0⟩ : V3 Int)]], [[(⟨7, 7, 7⟩ : V3 Int)]]] := ho
      rw [List.mem_cons, List.mem_singleton] at he
      rcases he with rfl | rfl
      · exact ⟨⟨0, 0, 0⟩, rfl, by show InHalfOpen _ _ _; unfold InHalfOpen; decide⟩
      · exact ⟨⟨7, 7, 7⟩, rfl, by show InHalfOpen _ _ _; unfold InHalfOpen; decide⟩
  · intro r hr
    show MapOk (sy2.data r) ∧ ∀ id l, mfind (sy2.data r) id = some l → ∃ p ∈ sx1.locals r, p.idPatch = id
    by_cases h0 : r = 0
    · subst h0
      refine ⟨List.pairwise_singleton _ _, fun id l hl => ?_⟩
      refine ⟨⟨0, u64max, 0, sxRoot, 0⟩, by decide +kernel, ?_⟩
      have := mfind_mem' _ _ _ hl
      rw [sy_data, if_pos rfl, List.mem_singleton, Prod.mk.injEq] at this
      exact this.1.symm
    · rw [sy_data, if_neg h0]
      exact ⟨List.Pairwise.nil, fun id l hl => by cases hl⟩

theorem sy_objs : allObj 2 sy2.data = [[[⟨0, 0, 0⟩]], [[⟨7, 7, 7⟩]]] := by decide +kernel

/-- One axis of a box that can not be split is at most 3 wide. -/
theorem sy_axis {mn mx : Nat} (dm : Int) (h : ¬ mn < mx) (hm : mn < 2 ^ 64) (hx : mx + 1 < 2 ^ 64) (h0 : transformMul roundedArith 7 dm 0 mn ≤ 0)
    (h7 : 7 < transformMul roundedArith 7 dm 0 (u64add mx 1)) : False := by
  unfold transformMul u64sub roundedArith at h0 h7
  unfold u64add at h7
  simp only at h0 h7
  omega

theorem sy_limits : BalLimits syEnv sxLB ⟨0, 0, 0⟩ (allObj 2 sy2.data) := by
  rw [sy_objs]
  refine ⟨List.cons_ne_nil _ _, ?_, fun l _ _ => ⟨l, rfl, rfl⟩, ?_, by decide⟩
  · intro v hv
    have : v = 1 := List.mem_singleton.1 hv
    rw [this]; decide
  · intro c l hc hs hin hlt
    have hlt' : 1 < l.length := hlt
    have hp : l.Perm [[[⟨0, 0, 0⟩]], [[⟨7, 7, 7⟩]]] := hs.perm_of_length_le (by show 2 ≤ l.length; omega)
    obtain ⟨v, v1, v2⟩ := hin _ (hp.mem_iff.2 List.mem_cons_self)
    obtain ⟨w, w1, w2⟩ := hin _ (hp.mem_iff.2 (List.mem_cons_of_mem _ List.mem_cons_self))
    have hv : v = ⟨0, 0, 0⟩ := (Option.some.inj v1).symm
    have hw : w = ⟨7, 7, 7⟩ := (Option.some.inj w1).symm
    subst hv hw
    obtain ⟨⟨a1, a2⟩, ⟨a3, a4⟩, a5, a6⟩ := v2
    obtain ⟨⟨b1, b2⟩, ⟨b3, b4⟩, b5, b6⟩ := w2
    obtain ⟨-, ⟨c1, c2, c3⟩, d1, d2, d3⟩ := hc
    refine ⟨⟨?_, by omega⟩, ⟨?_, by omega⟩, ?_, by omega⟩
    · by_contra h; exact sy_axis _ h d1 c1 a1 b2
    · by_contra h; exact sy_axis _ h d2 c2 a3 b4
    · by_contra h; exact sy_axis _ h d3 c3 a5 b6

theorem sy_synced : Synced 2 sy2 := by
  intro r hr id
  have h0 : sy2.owned 0 = [0] ∧ (sy2.locals 0).map (·.idPatch) = [0] := by decide +kernel
  have h1 : sy2.owned 1 = [] ∧ (sy2.locals 1).map (·.idPatch) = [] := by decide +kernel
  have : r = 0 ∨ r = 1 := by omega
  rcases this with rfl | rfl
  · rw [h0.1, h0.2]
  · rw [h1.1, h1.2]

/-- Two objects in one root patch, split above one object: the balancing loop ends, and every end of it has both objects. -/
example : (∃ s', BalanceLoad syEnv sxLB 2 countLoad sy2 s') ∧
    ∀ s', BalanceLoad syEnv sxLB 2 countLoad sy2 s' → (allObj 2 s'.data).Perm [[[⟨0, 0, 0⟩]], [[⟨7, 7, 7⟩]]] := by
  have h := C42_balance syEnv sxLB ⟨0, 0, 0⟩ syEnv_ok 2 (by omega) (by omega) sy2 sy2_hist sy_synced sy_limits (by rw [sy_objs]; decide +kernel)
  rw [sy_objs] at h
  exact ⟨h.1, fun s' hs => (h.2 s' hs).1⟩

end Shamrock
