import Verif.Props.Sched
/-! C37: a concrete case meeting the hypotheses of the theorems about the scheduler step. -/
namespace Shamrock

/-- Objects are points with integer coordinates; patches with a load above 50 are split. -/
def sxEnv : SchedEnv (V3 Int) Int where
  lay := [1]
  pos := id
  box := domainBox roundedArith ⟨7, 7, 7⟩ ⟨-5, 0, 0⟩ ⟨0, 0, 0⟩
  garbage := fun _ => ⟨0, 0, 0⟩
  order := fun _ _ _ => List.range
  critSplit := 50
  critMerge := 10

def sxLB : LBEnv (V3 Int) (PLayer (V3 Int)) := ⟨f64RNE, mergeSortImpl, fun v => v.x, Res.ok, Res.ok⟩

def sxStep : StepEnv where
  ls := [0]
  ps := []
  iterS := id
  iterM := id
  iterO := fun _ l => l
  junk := fun _ => 0
  packOrder := List.range

def sxRoot : PatchCoord := ⟨⟨0, 0, 0⟩, ⟨63, 63, 63⟩⟩

def sx0 : Sched (V3 Int) := match addRoots [1] [sxRoot] Sched.empty with
  | .ok s => s
  | _ => Sched.empty
def sx1 : Sched (V3 Int) := refreshOwned (fun _ l => l) sx0
def sx2 : Sched (V3 Int) := { sx1 with data := fun r => if r = 0 then [(0, [⟨1, [⟨0, 0, 0⟩, ⟨1, 3, 7⟩]⟩])] else [] }
def sx3 : Sched (V3 Int) := match updateLoads 2 (fun _ _ => 100) sx2 with
  | .ok s => s
  | _ => Sched.empty

theorem sxEnv_ok : EnvOk sxEnv ⟨0, 0, 0⟩ :=
  ⟨⟨by decide, by decide⟩, fun _ _ _ => goodOrder_id,
    ⟨roundedArith, ⟨7, 7, 7⟩, ⟨-5, 0, 0⟩, ⟨by show (0 : Int) ≤ 7; omega, by show (0 : Int) ≤ 7; omega, by show (0 : Int) ≤ 7; omega⟩, rfl⟩⟩

theorem sx0_ok : addRoots [1] [sxRoot] Sched.empty = .ok sx0 := by rfl

theorem sxRoot_ok : CoordOk ⟨0, 0, 0⟩ sxRoot := by unfold CoordOk sxRoot; decide

theorem sx1_hist : SchedHist sxEnv sxLB ⟨0, 0, 0⟩ 2 sx1 :=
  SchedHist.startSync [sxRoot] sx0 (fun _ l => l) (fun _ _ => List.Perm.refl _) (fun c hc => by rw [List.mem_singleton.1 hc]; exact sxRoot_ok) (by decide) sx0_ok

theorem sx_data (r : Nat) : sx2.data r = if r = 0 then [(0, [⟨1, [⟨0, 0, 0⟩, ⟨1, 3, 7⟩]⟩])] else [] := rfl

theorem sx2_hist : SchedHist sxEnv sxLB ⟨0, 0, 0⟩ 2 sx2 := by
  have h := C37_history sxEnv sxLB ⟨0, 0, 0⟩ sxEnv_ok 2 (by omega) (by omega) sx1 sx1_hist
  refine SchedHist.data sx1 _ sx1_hist ⟨h.forest, h.list, h.inj, h.loc, ?_, ?_⟩
  · intro r hr p hp
    have h0 : sx1.locals 0 = [⟨0, u64max, 0, sxRoot, 0⟩] := by decide +kernel
    have h1 : sx1.locals 1 = [] := by decide +kernel
    have hp' : p ∈ sx1.locals r := hp
    have hr' : r = 0 := by
      by_contra hne
      have : r = 1 := by omega
      rw [this, h1] at hp'
      cases hp'
    subst hr'
    rw [h0, List.mem_singleton] at hp'
    subst hp'
    refine ⟨[⟨1, [⟨0, 0, 0⟩, ⟨1, 3, 7⟩]⟩], rfl, ⟨rfl, 2, ?_⟩, ?_⟩
    · intro f hf
      rw [List.mem_singleton] at hf
      subst hf
      exact ⟨⟨by show 0 < 1; omega, ⟨2, rfl⟩, by show 2 < 2 ^ 32; omega⟩, rfl⟩
    · intro o ho
      have he : o ∈ [[[(⟨0, 0, 0⟩ : V3 Int)]], [[(⟨1, 3, 7⟩ : V3 Int)]]] := ho
      rw [List.mem_cons, List.mem_singleton] at he
      rcases he with rfl | rfl
      · exact ⟨⟨0, 0, 0⟩, rfl, by show InHalfOpen _ _ _; unfold InHalfOpen; decide⟩
      · exact ⟨⟨1, 3, 7⟩, rfl, by show InHalfOpen _ _ _; unfold InHalfOpen; decide⟩
  · intro r hr
    show MapOk (sx2.data r) ∧ ∀ id l, mfind (sx2.data r) id = some l → ∃ p ∈ sx1.locals r, p.idPatch = id
    by_cases h0 : r = 0
    · subst h0
      refine ⟨List.pairwise_singleton _ _, fun id l hl => ?_⟩
      refine ⟨⟨0, u64max, 0, sxRoot, 0⟩, by decide +kernel, ?_⟩
      have := mfind_mem' _ _ _ hl
      rw [sx_data, if_pos rfl, List.mem_singleton, Prod.mk.injEq] at this
      exact this.1.symm
    · rw [sx_data, if_neg h0]
      exact ⟨List.Pairwise.nil, fun id l hl => by cases hl⟩

theorem sx3_hist : SchedHist sxEnv sxLB ⟨0, 0, 0⟩ 2 sx3 := SchedHist.loads sx2 sx3 (fun _ _ => 100) sx2_hist rfl

/-- The state `sx3` has a patch to split, data, and meets the hypotheses of the step: the step exists and keeps the two objects. -/
theorem sx3_step : StepOk sxEnv 2 sxStep sx3 ∧ CodecOk sxLB.ser sxLB.des sxEnv.lay 2 sx3.data ∧
    (∃ p ∈ buildGlobal 2 sx3.locals, sxEnv.critSplit < p.loadValue) ∧ (allObj 2 sx3.data).length = 2 := by
  have hg : buildGlobal 2 sx3.locals = [⟨0, u64max, 100, sxRoot, 0⟩] := by decide +kernel
  have hlen : (allObj 2 sx3.data).length = 2 := by decide +kernel
  have H := (sx3_hist.ok sxEnv_ok (by omega) (by omega)).tl.tinv
  have hN : sx3.tree.nextId = 1 := by decide +kernel
  have hleaf : sx3.tree.leafKey 0 = true := by decide +kernel
  have hpolk : sx3.tree.polk 0 = false := by decide +kernel
  refine ⟨⟨by decide +kernel, by rw [hg]; exact List.cons_ne_nil _ _, by rw [hg]; decide, ⟨?_, by decide⟩, ⟨?_, by decide⟩, fun _ => List.Perm.refl _,
    fun _ => List.Perm.refl _, fun _ _ => List.Perm.refl _, fun _ => List.Perm.refl _, ?_, ?_, by decide, ?_⟩, ?_, ?_, hlen⟩
  · intro x
    constructor
    · intro hx
      have hx' : x ∈ [0] := hx
      rw [List.mem_singleton] at hx'
      rw [hx']; exact hleaf
    · intro hx
      obtain ⟨n, n1, _⟩ := (H.leaf x).1 hx
      have := H.fresh x n n1
      have : x = 0 := by omega
      show x ∈ [0]
      rw [this]; exact List.mem_singleton.2 rfl
  · intro x
    constructor
    · intro hx; exact absurd hx List.not_mem_nil
    · intro hx
      obtain ⟨n, n1, _⟩ := (H.polk x).1 hx
      have := H.fresh x n n1
      have : x = 0 := by omega
      rw [this, hpolk] at hx; cases hx
  · intro p hp _
    rw [hg, List.mem_singleton] at hp
    rw [hp]; unfold Splittable sxRoot; decide
  · rw [hg, hN]; decide
  · intro v hv
    have : v = 1 := List.mem_singleton.1 hv
    rw [this, hlen]; decide
  · intro l _ _
    exact ⟨l, rfl, rfl⟩
  · rw [hg]
    exact ⟨_, List.mem_singleton.2 rfl, by decide⟩

/-- Two ranks, one root patch with two objects and a load of 100: there is a step, and after it the two objects are still there. -/
example : ∃ s', SchedStep sxEnv sxLB 2 sxStep true true sx3 s' ∧ SchedSpec sxEnv 2 s' ∧ (allObj 2 s'.data).Perm (allObj 2 sx3.data) := by
  obtain ⟨h1, h2, -, -⟩ := sx3_step
  obtain ⟨s', hs⟩ := C37_step_exists sxEnv sxLB ⟨0, 0, 0⟩ sxEnv_ok 2 (by omega) (by omega) sx3 sx3_hist sxStep true true h1 (fun _ => rfl) h2
  obtain ⟨a, b, -⟩ := C37_step_conserves sxEnv sxLB ⟨0, 0, 0⟩ sxEnv_ok 2 (by omega) (by omega) sx3 s' sx3_hist sxStep true true h1 (fun _ => rfl) h2 hs
  exact ⟨s', hs, b, a⟩

/-- **C37, defect: the loads after `add_root_patches`.** `add_root_patches` discards the result of `build_local`, so `owned_patch_id` is empty: a
following `update_local_load_value` marks the loads as up to date although the load of the new patch was not updated. -/
theorem C37_root_loads_stale_defect : ∃ s s' : Sched (V3 Int), addRoots [1] [sxRoot] Sched.empty = .ok s ∧ updateLoads 2 (fun _ _ => 100) s = .ok s' ∧
    s'.fresh = true ∧ (buildGlobal 2 s'.locals).map (·.loadValue) = [0] :=
  ⟨sx0, (match updateLoads 2 (fun _ _ => 100) sx0 with | .ok s => s | _ => Sched.empty), rfl, rfl, by decide +kernel, by decide +kernel⟩

end Shamrock
