import Verif.Props.PushAll
import Verif.Props.BalLoadEx
/-! C42: a concrete case for the whole of `push_patch_data`. -/
namespace Shamrock

def szIns : List (PLayer (V3 Int)) := [[⟨1, [⟨0, 0, 0⟩, ⟨7, 7, 7⟩]⟩], [⟨1, []⟩]]

theorem sz_good : ∀ l ∈ szIns, l.Good syEnv.lay ∧ l.objects.length < 10 := by
  intro l hl
  unfold szIns at hl
  rw [List.mem_cons, List.mem_singleton] at hl
  rcases hl with rfl | rfl
  · refine ⟨⟨rfl, 2, ?_⟩, by decide⟩
    intro f hf
    rw [List.mem_singleton] at hf
    subst hf
    exact ⟨⟨by show 0 < 1; omega, ⟨2, rfl⟩, by show 2 < 2 ^ 32; omega⟩, rfl⟩
  · refine ⟨⟨rfl, 0, ?_⟩, by decide⟩
    intro f hf
    rw [List.mem_singleton] at hf
    subst hf
    exact ⟨⟨by show 0 < 1; omega, ⟨0, rfl⟩, by show 0 < 2 ^ 32; omega⟩, rfl⟩

theorem sz_in : ∀ o ∈ [[[(⟨0, 0, 0⟩ : V3 Int)]], [[(⟨7, 7, 7⟩ : V3 Int)]]], InPatch syEnv.pos syEnv.box sxRoot o := by
  intro o ho
  rw [List.mem_cons, List.mem_singleton] at ho
  rcases ho with rfl | rfl
  · exact ⟨⟨0, 0, 0⟩, rfl, by show InHalfOpen _ _ _; unfold InHalfOpen; decide⟩
  · exact ⟨⟨7, 7, 7⟩, rfl, by show InHalfOpen _ _ _; unfold InHalfOpen; decide⟩

theorem sz_root (x : Nat) : sx1.tree.roots x = decide (x = 0) := by
  have h : sx1.tree.roots x = if x = 0 then true else false := rfl
  rw [h]
  by_cases hx : x = 0 <;> simp [hx]

theorem sz_node : ∃ n, sx1.tree.tree 0 = some n ∧ n.coord = sxRoot := ⟨_, rfl, rfl⟩

theorem sz_list : buildGlobal 2 sx1.locals = [⟨0, u64max, 0, sxRoot, 0⟩] := by decide +kernel

theorem sz_ins_objs : allObj 2 sx1.data ++ szIns.flatMap PLayer.objects = [[[⟨0, 0, 0⟩]], [[⟨7, 7, 7⟩]]] := by decide +kernel

theorem sz_synced : Synced 2 sx1 := sy_synced

theorem sz_disjoint : RootsDisjoint sx1.tree := by
  intro a b na nb p ha hb _ _ _ _
  rw [sz_root, decide_eq_true_eq] at ha hb
  omega

theorem sz_range : RootsInRange ⟨0, 0, 0⟩ sx1.tree := by
  intro r n hr hn
  rw [sz_root, decide_eq_true_eq] at hr
  subst hr
  obtain ⟨m, m1, m2⟩ := sz_node
  rw [m1, Option.some.injEq] at hn
  subst hn
  rw [m2]
  unfold sxRoot
  refine ⟨⟨?_, ?_, ?_⟩, ⟨?_, ?_, ?_⟩, ?_, ?_, ?_⟩ <;> decide

theorem sz_roots : Enumerates [0] sx1.tree.roots := by
  intro x
  rw [sz_root, decide_eq_true_eq, List.mem_singleton]

/-- Rank 0 owns the root patch and pushes two objects, rank 1 owns nothing and pushes nothing: the hypotheses hold; the data with both objects in the patch is a result as specified,
and every end of the balancing loop from it has both objects. -/
example : (∀ r < 2, PushResult syEnv 2 sx1 [[[⟨0, 0, 0⟩]], [[⟨7, 7, 7⟩]]] r (sy2.data r)) ∧
    (∃ s', BalanceLoad syEnv sxLB 2 countLoad { sx1 with data := sy2.data } s') ∧
    ∀ s', BalanceLoad syEnv sxLB 2 countLoad { sx1 with data := sy2.data } s' → (allObj 2 s'.data).Perm [[[⟨0, 0, 0⟩]], [[⟨7, 7, 7⟩]]] := by
  obtain ⟨n, n1, n2⟩ := sz_node
  have hin : ∀ o ∈ szIns.flatMap PLayer.objects, ∃ x n, sx1.tree.roots x = true ∧ sx1.tree.tree x = some n ∧ InPatch syEnv.pos syEnv.box n.coord o := by
    intro o ho
    exact ⟨0, n, by rw [sz_root]; rfl, n1, by rw [n2]; exact sz_in o ho⟩
  obtain ⟨h1, h2⟩ := C42_push_balance_partial syEnv sxLB ⟨0, 0, 0⟩ syEnv_ok 2 (by omega) (by omega) sx1 sy1_hist sz_synced sz_disjoint sz_range [0] sz_roots (by decide) rfl szIns rfl 10 sz_good
    (by
      intro r l hl
      match r with
      | 0 => exact Or.inl (by decide +kernel)
      | 1 => right; have : l = [⟨1, []⟩] := (Option.some.inj hl).symm; rw [this]; decide
      | r + 2 => cases hl)
    hin [[[⟨0, 0, 0⟩]], [[⟨7, 7, 7⟩]]] sz_ins_objs.symm (by have := sy_limits; rw [sy_objs] at this; exact this) (by decide +kernel)
    (fun _ => ⟨0, 0, 0⟩) (fun _ _ _ _ => List.range) (fun _ _ _ _ => goodOrder_id) (fun _ _ g => g) (fun _ _ _ => List.Perm.refl _) 1000 1000 1 true (by decide) (by decide) (by decide)
  have hp : ∀ r < 2, PushResult syEnv 2 sx1 [[[⟨0, 0, 0⟩]], [[⟨7, 7, 7⟩]]] r (sy2.data r) := by
    intro r hr
    by_cases h0 : r = 0
    · subst h0
      refine ⟨by decide +kernel, fun kv hkv => ?_⟩
      have hkv' : kv ∈ sy2.data 0 := hkv
      rw [sy_data, if_pos rfl, List.mem_singleton] at hkv'
      subst hkv'
      refine ⟨(sz_good _ List.mem_cons_self).1, fun p hp _ => ?_⟩
      rw [sz_list, List.mem_singleton] at hp
      subst hp
      refine ⟨sz_in, fun _ => true, ?_, fun o ho => ⟨fun _ => sz_in o ho, fun _ => rfl⟩⟩
      rw [List.filter_true]
      exact List.Perm.refl _
    · have h1 : r = 1 := by omega
      subst h1
      exact ⟨by decide +kernel, fun kv hkv => by cases hkv⟩
  obtain ⟨-, -, h3, h4⟩ := h2 sy2.data hp
  exact ⟨hp, h3, fun s' hs' => (h4 s' hs').1⟩

end Shamrock
