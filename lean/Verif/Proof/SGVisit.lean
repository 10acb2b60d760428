import Verif.Proof.SGMain
import Verif.Proof.FmmM2P
import Verif.Model.SelfGravMM
/-! One traversal of the tree: the reported cells partition the particles. -/
namespace Shamrock.SelfGrav

open Shamrock Shamrock.Fmm

noncomputable section

section
variable {w n sb : Nat} {code : Nat → BitVec w} {t : BVH ℝ} {T : KTree} {st : Nat → Nat} {bx : KTree → V3 ℝ × V3 ℝ}

theorem cellIdx_leaf (off k : Nat) : cellIdx off (KTree.leaf k).ref = k + off := rfl

theorem cellIdx_node (off i : Nat) (l r : KTree) : cellIdx off (KTree.node i l r).ref = i := rfl

theorem visit_objs (K : StructOk n sb code t.sortMap t.redMap t.nodes T st) (cond : Nat → Bool) : ∀ S : KTree, S ∈ T.subtrees →
    (S.visit t.nodes.length cond).flatMap (fun e => objsIn t e.id) = cellObjs t.sortMap st S := by
  intro S
  induction S with
  | leaf k =>
    intro hS
    have h : ∀ b : Bool, (if b = true then [TEvent.found (cellIdx t.nodes.length (k, true))] else
        [TEvent.excluded (cellIdx t.nodes.length (k, true))]).flatMap (fun e => objsIn t e.id) = objsIn t (cellIdx t.nodes.length (k, true)) := by
      intro b
      cases b <;> simp [TEvent.id]
    unfold KTree.visit
    rw [h]
    exact (objs_ok K hS).2
  | node i l r ihl ihr =>
    intro hS
    unfold KTree.visit
    by_cases hc : cond i = true
    · rw [if_pos hc, List.flatMap_append, ihl (subtrees_trans T _ _ hS (List.mem_cons_of_mem _ (List.mem_append.2 (Or.inl (self_mem_subtrees l))))),
        ihr (subtrees_trans T _ _ hS (List.mem_cons_of_mem _ (List.mem_append.2 (Or.inr (self_mem_subtrees r)))))]
      exact List.flatMap_append.symm
    · rw [if_neg hc, List.flatMap_cons, List.flatMap_nil, List.append_nil]
      exact (objs_ok K hS).2

theorem visit_mem (cond : Nat → Bool) (off : Nat) : ∀ S : KTree, S ∈ T.subtrees → ∀ e ∈ S.visit off cond,
    (∃ k, KTree.leaf k ∈ T.subtrees ∧ e = .found (k + off) ∧ cond (k + off) = true) ∨
      ∃ R ∈ T.subtrees, e = .excluded (cellIdx off R.ref) ∧ cond (cellIdx off R.ref) = false := by
  intro S
  induction S with
  | leaf k =>
    intro hS e he
    unfold KTree.visit at he
    by_cases hc : cond (cellIdx off (k, true)) = true
    · rw [if_pos hc, List.mem_singleton] at he
      exact Or.inl ⟨k, hS, he, hc⟩
    · rw [if_neg hc, List.mem_singleton] at he
      exact Or.inr ⟨_, hS, he, Bool.eq_false_iff.2 hc⟩
  | node i l r ihl ihr =>
    intro hS e he
    unfold KTree.visit at he
    by_cases hc : cond i = true
    · rw [if_pos hc] at he
      rcases List.mem_append.1 he with he | he
      · exact ihl (subtrees_trans T _ _ hS (List.mem_cons_of_mem _ (List.mem_append.2 (Or.inl (self_mem_subtrees l))))) e he
      · exact ihr (subtrees_trans T _ _ hS (List.mem_cons_of_mem _ (List.mem_append.2 (Or.inr (self_mem_subtrees r))))) e he
    · rw [if_neg hc, List.mem_singleton] at he
      exact Or.inr ⟨_, hS, he, Bool.eq_false_iff.2 hc⟩

/-- If the parts of a list partition `n` indices, each index has its part, and sums over the parts are sums over the indices. -/
theorem row_sum {E : Type} [Nonempty E] (B : E → List Nat) (L : List E) (n : Nat) (hcov : (L.flatMap B).Perm (List.range n)) :
    ∃ W : Nat → E, (∀ j < n, W j ∈ L ∧ j ∈ B (W j)) ∧ ∀ f : E → Nat → ℝ,
      (L.map fun e => ((B e).map (f e)).sum).sum = ((List.range n).map fun j => f (W j) j).sum := by
  classical
  have hex : ∀ j, ∃ e, j < n → e ∈ L ∧ j ∈ B e := by
    intro j
    by_cases h : j < n
    · obtain ⟨e, h1, h2⟩ := List.mem_flatMap.1 (hcov.mem_iff.2 (List.mem_range.2 h))
      exact ⟨e, fun _ => ⟨h1, h2⟩⟩
    · exact ⟨Classical.arbitrary E, fun h' => absurd h' h⟩
  choose W hW using hex
  refine ⟨W, hW, ?_⟩
  intro f
  have hsnd : ∀ L : List E, (L.flatMap fun e => (B e).map fun j => (e, j)).map (·.2) = L.flatMap B := by
    intro L
    rw [List.map_flatMap]
    apply flatMap_congr'
    intro e _
    rw [List.map_map]
    exact List.map_id _
  have hperm : ((L.flatMap fun e => (B e).map fun j => (e, j)).map (·.2)).Perm (List.range n) := by rw [hsnd]; exact hcov
  have hinj := List.inj_on_of_nodup_map (hperm.nodup_iff.2 List.nodup_range)
  have hmem : ∀ e j, e ∈ L → j ∈ B e → (e, j) ∈ L.flatMap fun e => (B e).map fun j => (e, j) :=
    fun e j h1 h2 => List.mem_flatMap.2 ⟨e, h1, List.mem_map.2 ⟨j, h2, rfl⟩⟩
  have hfst : ∀ x ∈ L.flatMap (fun e => (B e).map fun j => (e, j)), x.1 = W x.2 := by
    rintro ⟨e, j⟩ hx
    have hj : j < n := List.mem_range.1 (hperm.mem_iff.1 (List.mem_map.2 ⟨_, hx, rfl⟩))
    have h := hW j hj
    exact congrArg Prod.fst (hinj hx (hmem _ _ h.1 h.2) rfl)
  have hleft : ∀ L : List E, (L.map fun e => ((B e).map (f e)).sum).sum =
      ((L.flatMap fun e => (B e).map fun j => (e, j)).map fun x => f x.1 x.2).sum := by
    intro L
    induction L with
    | nil => rfl
    | cons e L ih =>
      rw [List.map_cons, List.sum_cons, ih, List.flatMap_cons, List.map_append, List.sum_append, List.map_map]
      rfl
  rw [hleft, ← (hperm.map fun j => f (W j) j).sum_eq, List.map_map]
  congr 1
  apply List.map_congr_left
  intro x hx
  show f x.1 x.2 = f (W x.2) x.2
  rw [hfst x hx]

theorem lenSq_ne {r : V3 ℝ} (h : lenSq r ≠ 0) : r ≠ ⟨0, 0, 0⟩ := by
  rintro rfl
  exact h (by simp [lenSq])

theorem sgOpen_iff {theta : ℝ} (hth : 0 < theta) (size : ℝ) (s : V3 ℝ) {id : Nat} {b : V3 ℝ × V3 ℝ} (hb : cellBox t id = some b) :
    sgOpen t theta size s id = false ↔ WellSeparated theta size s b := by
  obtain ⟨d, hd⟩ : ∃ d, d = ((center b).x - s.x) ^ 2 + ((center b).y - s.y) ^ 2 + ((center b).z - s.z) ^ 2 := ⟨_, rfl⟩
  have hd0 : 0 ≤ d := by rw [hd]; positivity
  have hcen : s = center b ↔ d = 0 := by
    constructor
    · intro h; rw [hd, h]; ring
    · intro h
      rw [hd] at h
      have e1 := sq_nonneg ((center b).x - s.x)
      have e2 := sq_nonneg ((center b).y - s.y)
      have e3 := sq_nonneg ((center b).z - s.z)
      have f1 : (center b).x - s.x = 0 := pow_eq_zero_iff (two_ne_zero) |>.1 (by linarith)
      have f2 : (center b).y - s.y = 0 := pow_eq_zero_iff (two_ne_zero) |>.1 (by linarith)
      have f3 : (center b).z - s.z = 0 := pow_eq_zero_iff (two_ne_zero) |>.1 (by linarith)
      calc s = ⟨s.x, s.y, s.z⟩ := rfl
        _ = ⟨(center b).x, (center b).y, (center b).z⟩ := by rw [sub_eq_zero.1 f1, sub_eq_zero.1 f2, sub_eq_zero.1 f3]
        _ = center b := rfl
  have hcode : sgOpen t theta size s id = decide ((if d = 0 then theta * 2 else (halfSide b + size) * (1 / Real.sqrt d)) > theta) := by
    have k1 : d = ((b.1.x + b.2.x) / 2 - s.x) * ((b.1.x + b.2.x) / 2 - s.x) + ((b.1.y + b.2.y) / 2 - s.y) * ((b.1.y + b.2.y) / 2 - s.y) +
        ((b.1.z + b.2.z) / 2 - s.z) * ((b.1.z + b.2.z) / 2 - s.z) := by
      rw [hd]; unfold center; ring
    unfold sgOpen
    rw [hb, k1]
    rfl
  unfold WellSeparated
  rw [hcode, ← hd, Ne, hcen, decide_eq_false_iff_not, not_lt]
  by_cases h0 : d = 0
  · rw [if_pos h0]
    constructor
    · intro h; linarith
    · rintro ⟨h, _⟩; exact absurd h0 h
  · rw [if_neg h0]
    have hs : 0 < Real.sqrt d := Real.sqrt_pos.2 (lt_of_le_of_ne hd0 (Ne.symm h0))
    rw [mul_one_div, div_le_iff₀ hs]
    exact ⟨fun h => ⟨h0, h⟩, fun h => h.2⟩

theorem open_far {theta : ℝ} (hth : 0 < theta) {size : ℝ} {s : V3 ℝ} {id : Nat} {b : V3 ℝ × V3 ℝ} (hb : cellBox t id = some b)
    (h : sgOpen t theta size s id = false) : lenSq (ctr t id - s) ≠ 0 := by
  have h1 := ((sgOpen_iff hth size s hb).1 h).1
  rw [ctr_box hb]
  intro h0
  unfold lenSq at h0
  have e1 := mul_self_nonneg (center b - s).x
  have e2 := mul_self_nonneg (center b - s).y
  have e3 := mul_self_nonneg (center b - s).z
  have f1 : (center b - s).x = 0 := mul_self_eq_zero.1 (by linarith)
  have f2 : (center b - s).y = 0 := mul_self_eq_zero.1 (by linarith)
  have f3 : (center b - s).z = 0 := mul_self_eq_zero.1 (by linarith)
  have g1 : (center b).x - s.x = 0 := f1
  have g2 : (center b).y - s.y = 0 := f2
  have g3 : (center b).z - s.z = 0 := f3
  exact h1 (show (⟨s.x, s.y, s.z⟩ : V3 ℝ) = ⟨(center b).x, (center b).y, (center b).z⟩ by
    rw [sub_eq_zero.1 g1, sub_eq_zero.1 g2, sub_eq_zero.1 g3])

end

end

end Shamrock.SelfGrav
