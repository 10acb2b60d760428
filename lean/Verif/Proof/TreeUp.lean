import Verif.Model.SelfGrav
import Verif.Props.TreeOps
/-! Upward propagation with a combination that depends on the cell (same proof as in Props/TreeOps). -/
namespace Shamrock.SelfGrav

open Shamrock

/-- Combination of the leaf values along the tree, with a combination that depends on the cell. -/
def _root_.Shamrock.KTree.valueAt {α : Type} (comb : Nat → α → α → α) (leafv : Nat → α) : KTree → α
  | .leaf k => leafv k
  | .node i l r => comb i (l.valueAt comb leafv) (r.valueAt comb leafv)

/-- Work item of the step. -/
def propItemAt {α : Type} (comb : Nat → α → α → α) (nodes : List KNode) (gid : Nat) : List (KStep (List α) α) :=
  propItem (comb gid) nodes.length nodes gid

/-- The launches. -/
def upAt {α : Type} (comb : Nat → α → α → α) (nodes : List KNode) : List (List Nat) → List α → Option (List α)
  | [], m => some m
  | s :: r, m => (kLaunch nodes.length (propItemAt comb nodes) [] s m).bind (upAt comb nodes r)

section
variable {α : Type}

/-- State of the shared buffer when all subtrees of depth at most `k` are up to date. -/
def GUpTo (comb : Nat → α → α → α) (leafv : Nat → α) (nodes : List KNode) (T : KTree) (k : Nat) (m : List α) : Prop :=
  m.length = 2 * nodes.length + 1 ∧ ∀ S ∈ T.subtrees, S.depth ≤ k → m[cellIdx nodes.length S.ref]? = some (S.valueAt comb leafv)

/-- Invariant inside the launch number `k + 1`. -/
structure GInv (comb : Nat → α → α → α) (leafv : Nat → α) (nodes : List KNode) (T : KTree) (k : Nat) (st : KState (List α) α) : Prop where
  up : GUpTo comb leafv nodes T k st.mem
  idle : ∀ t, nodes.length ≤ t → st.rem t = []
  item : ∀ t nd, nodes[t]? = some nd →
    (st.rem t = [readStep (leftChild nodes.length nd), readStep (rightChild nodes.length nd), combineStep (comb t) t] ∧ st.loc t = []) ∨
    (∃ x, st.rem t = [readStep (rightChild nodes.length nd), combineStep (comb t) t] ∧ st.loc t = [x] ∧
      ∀ l r, KTree.node t l r ∈ T.subtrees → l.depth ≤ k → x = l.valueAt comb leafv) ∨
    (∃ x y, st.rem t = [combineStep (comb t) t] ∧ st.loc t = [x, y] ∧
      ∀ l r, KTree.node t l r ∈ T.subtrees → l.depth ≤ k → r.depth ≤ k → x = l.valueAt comb leafv ∧ y = r.valueAt comb leafv) ∨
    (st.rem t = [] ∧ ∀ l r, KTree.node t l r ∈ T.subtrees → l.depth ≤ k → r.depth ≤ k →
      st.mem[t]? = some ((KTree.node t l r).valueAt comb leafv))

theorem GInv_step {comb : Nat → α → α → α} {leafv : Nat → α} {nodes : List KNode} {T : KTree} (H : T.Complete nodes) (k : Nat)
    (st : KState (List α) α) (h : GInv comb leafv nodes T k st) (t : Nat) :
    ∃ st', st.step t = some st' ∧ GInv comb leafv nodes T k st' ∧
      (∀ j, (st'.rem j).length = if j = t then (st.rem j).length - 1 else (st.rem j).length) := by
  by_cases ht : t < nodes.length
  · have hnd : nodes[t]? = some nodes[t] := List.getElem?_eq_getElem ht
    -- every item has a subtree
    obtain ⟨l0, r0, hlr⟩ := (internals_subtrees T t).1 (H.ints.mem_iff.2 (List.mem_range.2 ht))
    obtain ⟨nd, e1, e2, e3⟩ := complete_children H t l0 r0 hlr
    have hlen := h.up.1
    have hcl := (complete_ref H l0 (subtrees_trans T _ _ hlr (by simp [KTree.subtrees, self_mem_subtrees]))).1
    have hcr := (complete_ref H r0 (subtrees_trans T _ _ hlr (by simp [KTree.subtrees, self_mem_subtrees]))).1
    have hother : ∀ (st' : KState (List α) α), (∀ j, j ≠ t → st'.rem j = st.rem j ∧ st'.loc j = st.loc j) →
        (∀ j : Nat, j ≠ t → st'.mem[j]? = st.mem[j]?) → ∀ j nd, j ≠ t → nodes[j]? = some nd →
        (st'.rem j = [readStep (leftChild nodes.length nd), readStep (rightChild nodes.length nd), combineStep (comb j) j] ∧ st'.loc j = []) ∨
        (∃ x, st'.rem j = [readStep (rightChild nodes.length nd), combineStep (comb j) j] ∧ st'.loc j = [x] ∧
          ∀ l r, KTree.node j l r ∈ T.subtrees → l.depth ≤ k → x = l.valueAt comb leafv) ∨
        (∃ x y, st'.rem j = [combineStep (comb j) j] ∧ st'.loc j = [x, y] ∧
          ∀ l r, KTree.node j l r ∈ T.subtrees → l.depth ≤ k → r.depth ≤ k → x = l.valueAt comb leafv ∧ y = r.valueAt comb leafv) ∨
        (st'.rem j = [] ∧ ∀ l r, KTree.node j l r ∈ T.subtrees → l.depth ≤ k → r.depth ≤ k →
          st'.mem[j]? = some ((KTree.node j l r).valueAt comb leafv)) := by
      intro st' h1 h2 j nd hj hjn
      rw [(h1 j hj).1, (h1 j hj).2, h2 j hj]
      exact h.item j nd hjn
    have hread : ∀ (a : Nat), a < st.mem.length → ∃ v, st.mem[a]? = some v := fun a ha => ⟨_, List.getElem?_eq_getElem ha⟩
    rcases h.item t nd e1 with ⟨hr, hl⟩ | ⟨x, hr, hl, hx⟩ | ⟨x, y, hr, hl, hxy⟩ | ⟨hr, hfin⟩
    · -- first read
      obtain ⟨v, hv⟩ := hread (leftChild nodes.length nd) (by rw [e2]; omega)
      refine ⟨⟨fun j => if j = t then [readStep (rightChild nodes.length nd), combineStep (comb t) t] else st.rem j,
        fun j => if j = t then [v] else st.loc j, st.mem⟩, ?_, ⟨h.up, ?_, ?_⟩, ?_⟩
      · unfold KState.step
        rw [hr]
        simp only [readStep, hv, hl, Option.map_some, Option.bind_eq_bind, Option.bind_some, List.nil_append, Option.pure_def]
      · intro j hj
        simp only
        rw [if_neg (by omega)]; exact h.idle j hj
      · intro j nd' hj
        by_cases hjt : j = t
        · subst hjt
          rw [e1, Option.some.injEq] at hj
          subst hj
          right; left
          refine ⟨v, by simp, by simp, ?_⟩
          intro l r hS hd
          obtain ⟨nd', f1, f2, f3⟩ := complete_children H j l r hS
          rw [e1, Option.some.injEq] at f1
          subst f1
          have := h.up.2 l (subtrees_trans T _ _ hS (by simp [KTree.subtrees, self_mem_subtrees])) hd
          rw [← f2, hv, Option.some.injEq] at this
          exact this
        · refine hother _ ?_ ?_ j nd' hjt hj
          · intro j hj; simp [hj]
          · intro _ _; rfl
      · intro j
        simp only
        split
        · rename_i hj; subst hj; rw [hr]; rfl
        · rfl
    · -- second read
      obtain ⟨v, hv⟩ := hread (rightChild nodes.length nd) (by rw [e3]; omega)
      refine ⟨⟨fun j => if j = t then [combineStep (comb t) t] else st.rem j,
        fun j => if j = t then [x, v] else st.loc j, st.mem⟩, ?_, ⟨h.up, ?_, ?_⟩, ?_⟩
      · unfold KState.step
        rw [hr]
        simp only [readStep, hv, hl, Option.map_some, Option.bind_eq_bind, Option.bind_some, List.singleton_append, Option.pure_def]
      · intro j hj
        simp only
        rw [if_neg (by omega)]; exact h.idle j hj
      · intro j nd' hj
        by_cases hjt : j = t
        · subst hjt
          rw [e1, Option.some.injEq] at hj
          subst hj
          right; right; left
          refine ⟨x, v, by simp, by simp, ?_⟩
          intro l r hS hd hd'
          obtain ⟨nd', f1, f2, f3⟩ := complete_children H j l r hS
          rw [e1, Option.some.injEq] at f1
          subst f1
          have := h.up.2 r (subtrees_trans T _ _ hS (by simp [KTree.subtrees, self_mem_subtrees])) hd'
          rw [← f3, hv, Option.some.injEq] at this
          exact ⟨hx l r hS hd, this⟩
        · refine hother _ ?_ ?_ j nd' hjt hj
          · intro j hj; simp [hj]
          · intro _ _; rfl
      · intro j
        simp only
        split
        · rename_i hj; subst hj; rw [hr]; rfl
        · rfl
    · -- write
      refine ⟨⟨fun j => if j = t then [] else st.rem j,
        fun j => if j = t then [] else st.loc j, st.mem.set t (comb t x y)⟩, ?_, ⟨⟨?_, ?_⟩, ?_, ?_⟩, ?_⟩
      · unfold KState.step
        rw [hr]
        simp only [combineStep, hl, if_pos (show t < st.mem.length by omega), Option.bind_eq_bind, Option.bind_some, Option.pure_def]
      · simp only [List.length_set]; exact hlen
      · intro S hS hd
        simp only
        by_cases hc : cellIdx nodes.length S.ref = t
        · cases S with
          | leaf j => simp only [KTree.ref, cellIdx, if_true] at hc; omega
          | node j l r =>
            obtain rfl : j = t := by simpa [KTree.ref, cellIdx] using hc
            have hd' : l.depth ≤ k ∧ r.depth ≤ k := by simp only [KTree.depth] at hd; omega
            obtain ⟨p, q⟩ := hxy l r hS hd'.1 hd'.2
            rw [hc, List.getElem?_set_self (by omega), p, q]; rfl
        · rw [List.getElem?_set_ne (fun h => hc h.symm)]
          exact h.up.2 S hS hd
      · intro j hj
        simp only
        rw [if_neg (by omega)]; exact h.idle j hj
      · intro j nd' hj
        by_cases hjt : j = t
        · subst hjt
          right; right; right
          refine ⟨by simp, ?_⟩
          intro l r hS hd hd'
          obtain ⟨p, q⟩ := hxy l r hS hd hd'
          simp only
          rw [List.getElem?_set_self (by omega), p, q]; rfl
        · exact hother _ (fun j hj => by simp [hj]) (fun j hj => by
            simp only; rw [List.getElem?_set_ne (fun h => hj h.symm)]) j nd' hjt hj
      · intro j
        simp only
        split
        · rename_i hj; subst hj; rw [hr]; rfl
        · rfl
    · refine ⟨st, by unfold KState.step; rw [hr], h, ?_⟩
      intro j
      split
      · rename_i hj; subst hj; rw [hr]; rfl
      · rfl
  · refine ⟨st, by unfold KState.step; rw [h.idle t (by omega)], h, ?_⟩
    intro j
    split
    · rename_i hj; subst hj; rw [h.idle j (by omega)]; rfl
    · rfl

theorem GInv_exec {comb : Nat → α → α → α} {leafv : Nat → α} {nodes : List KNode} {T : KTree} (H : T.Complete nodes) (k : Nat) :
    ∀ (sched : List Nat) (st : KState (List α) α), GInv comb leafv nodes T k st →
    ∃ st', st.exec sched = some st' ∧ GInv comb leafv nodes T k st' ∧ (∀ j, (st'.rem j).length = (st.rem j).length - sched.count j) := by
  intro sched
  induction sched with
  | nil => intro st h; exact ⟨st, rfl, h, fun k => by simp⟩
  | cons t r ih =>
    intro st h
    obtain ⟨s1, a1, a2, a3⟩ := GInv_step H k st h t
    obtain ⟨s2, b1, b2, b3⟩ := ih s1 a2
    refine ⟨s2, ?_, b2, ?_⟩
    · simp only [KState.exec, a1, Option.bind_eq_bind, Option.bind_some]; exact b1
    · intro k
      rw [b3 k, a3 k, List.count_cons]
      by_cases hk : k = t
      · subst hk; simp; omega
      · have : ¬ t = k := fun h => hk h.symm
        simp [hk, this]

theorem launch_upAt {comb : Nat → α → α → α} {leafv : Nat → α} {nodes : List KNode} {T : KTree} (H : T.Complete nodes) (k : Nat)
    (sched : List Nat) (m : List α) (h : GUpTo comb leafv nodes T k m) :
    ∃ m', kLaunch nodes.length (propItemAt comb nodes) [] sched m = some m' ∧ GUpTo comb leafv nodes T (k + 1) m' := by
  have hinit : GInv comb leafv nodes T k
      (⟨fun t => if t < nodes.length then propItemAt comb nodes t else [], fun _ => [], m⟩ : KState (List α) α) := by
    refine ⟨h, fun t ht => by simp only; rw [if_neg (by omega)], ?_⟩
    intro t nd hnd
    left
    have ht : t < nodes.length := by
      by_contra hc
      rw [List.getElem?_eq_none (by omega)] at hnd
      cases hnd
    refine ⟨?_, rfl⟩
    simp only [propItemAt, propItem, if_pos ht, hnd]
  obtain ⟨st, h1, h2, h3⟩ := GInv_exec H k (sched ++ drain (propItemAt comb nodes) nodes.length) _ hinit
  refine ⟨st.mem, by unfold kLaunch; rw [h1]; rfl, h2.up.1, ?_⟩
  intro S hS hd
  by_cases hk : S.depth ≤ k
  · exact h2.up.2 S hS hk
  · cases S with
    | leaf j => simp only [KTree.depth] at hk; omega
    | node i l r =>
      have ht := (complete_ref H _ hS).2 i l r rfl
      have hz : (st.rem i).length = 0 := by
        have := h3 i
        simp only [if_pos ht, List.count_append] at this
        have := drain_count (propItemAt comb nodes) nodes.length i ht
        omega
      simp only [KTree.depth] at hd
      have hi : cellIdx nodes.length (KTree.node i l r).ref = i := by simp [KTree.ref, cellIdx]
      rw [hi]
      rcases h2.item i nodes[i] (List.getElem?_eq_getElem ht) with ⟨hr, _⟩ | ⟨x, hr, _⟩ | ⟨x, y, hr, _⟩ | ⟨_, hfin⟩
      · rw [hr] at hz; simp at hz
      · rw [hr] at hz; simp at hz
      · rw [hr] at hz; simp at hz
      · exact hfin l r hS (by omega) (by omega)

theorem propagate_upAt {comb : Nat → α → α → α} {leafv : Nat → α} {nodes : List KNode} {T : KTree} (H : T.Complete nodes)
    : ∀ (scheds : List (List Nat)) (k : Nat) (m : List α), GUpTo comb leafv nodes T k m →
    ∃ m', upAt comb nodes scheds m = some m' ∧ GUpTo comb leafv nodes T (k + scheds.length) m' := by
  intro scheds
  induction scheds with
  | nil => intro k m h; exact ⟨m, rfl, h⟩
  | cons s r ih =>
    intro k m h
    obtain ⟨m1, a1, a2⟩ := launch_upAt H k s m h
    obtain ⟨m2, b1, b2⟩ := ih (k + 1) m1 a2
    refine ⟨m2, ?_, ?_⟩
    · unfold upAt
      rw [a1, Option.bind_some]; exact b1
    · rw [List.length_cons, show k + (r.length + 1) = k + 1 + r.length by omega]; exact b2


end

end Shamrock.SelfGrav
