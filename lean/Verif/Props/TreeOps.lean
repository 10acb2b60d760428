import Verif.Model.TreeOps
import Verif.Proof.Kernel
import Verif.Props.Karras
/-! Theorems on tree propagation (C08) and traversal (C09). -/
namespace Shamrock

/-- Index of a cell in the per-cell buffers: internal cells first, then the leaves. -/
def cellIdx (off : Nat) (r : Nat × Bool) : Nat := r.1 + if r.2 then off else 0

/-- All subtrees. -/
def KTree.subtrees : KTree → List KTree
  | .leaf k => [.leaf k]
  | .node i l r => .node i l r :: (l.subtrees ++ r.subtrees)

/-- Combination of the leaf values along the tree. -/
def KTree.value {α : Type} (comb : α → α → α) (leafv : Nat → α) : KTree → α
  | .leaf k => leafv k
  | .node _ l r => comb (l.value comb leafv) (r.value comb leafv)

theorem subtrees_trans : ∀ (T S R : KTree), S ∈ T.subtrees → R ∈ S.subtrees → R ∈ T.subtrees := by
  intro T
  induction T with
  | leaf k => intro S R h1 h2; simp only [KTree.subtrees, List.mem_singleton] at h1; subst h1; exact h2
  | node i l r ihl ihr =>
    intro S R h1 h2
    simp only [KTree.subtrees, List.mem_cons, List.mem_append] at h1
    rcases h1 with rfl | h1 | h1
    · exact h2
    · simp only [KTree.subtrees, List.mem_cons, List.mem_append]; exact Or.inr (Or.inl (ihl S R h1 h2))
    · simp only [KTree.subtrees, List.mem_cons, List.mem_append]; exact Or.inr (Or.inr (ihr S R h1 h2))

theorem self_mem_subtrees (T : KTree) : T ∈ T.subtrees := by cases T <;> simp [KTree.subtrees]

theorem subtrees_depth : ∀ (T S : KTree), S ∈ T.subtrees → S.depth ≤ T.depth := by
  intro T
  induction T with
  | leaf k => intro S h; simp only [KTree.subtrees, List.mem_singleton] at h; subst h; exact Nat.le_refl _
  | node i l r ihl ihr =>
    intro S h
    simp only [KTree.subtrees, List.mem_cons, List.mem_append] at h
    rcases h with rfl | h | h
    · exact Nat.le_refl _
    · have := ihl S h; simp only [KTree.depth]; omega
    · have := ihr S h; simp only [KTree.depth]; omega

theorem subtrees_encoded {nodes : List KNode} : ∀ (T S : KTree), T.Encoded nodes → S ∈ T.subtrees → S.Encoded nodes := by
  intro T
  induction T with
  | leaf k => intro S _ h; simp only [KTree.subtrees, List.mem_singleton] at h; subst h; trivial
  | node i l r ihl ihr =>
    intro S hE h
    have hE' := hE
    obtain ⟨nd, _, _, _, _, e1, e2⟩ := hE'
    simp only [KTree.subtrees, List.mem_cons, List.mem_append] at h
    rcases h with rfl | h | h
    · exact hE
    · exact ihl S e1 h
    · exact ihr S e2 h

theorem leaves_subtrees : ∀ (T : KTree) (k : Nat), KTree.leaf k ∈ T.subtrees ↔ k ∈ T.leaves := by
  intro T
  induction T with
  | leaf j => intro k; simp [KTree.subtrees, KTree.leaves]
  | node i l r ihl ihr => intro k; simp [KTree.subtrees, KTree.leaves, ihl, ihr]

theorem internals_subtrees : ∀ (T : KTree) (i : Nat), i ∈ T.internals ↔ ∃ l r, KTree.node i l r ∈ T.subtrees := by
  intro T
  induction T with
  | leaf j => intro k; simp [KTree.subtrees, KTree.internals]
  | node j l r ihl ihr =>
    intro i
    simp only [KTree.subtrees, KTree.internals, List.mem_cons, List.mem_append, ihl, ihr, KTree.node.injEq]
    constructor
    · rintro (rfl | ⟨a, b, h⟩ | ⟨a, b, h⟩)
      · exact ⟨l, r, Or.inl ⟨rfl, rfl, rfl⟩⟩
      · exact ⟨a, b, Or.inr (Or.inl h)⟩
      · exact ⟨a, b, Or.inr (Or.inr h)⟩
    · rintro ⟨a, b, ⟨rfl, rfl, rfl⟩ | h | h⟩
      · exact Or.inl rfl
      · exact Or.inr (Or.inl ⟨a, b, h⟩)
      · exact Or.inr (Or.inr ⟨a, b, h⟩)

/-- The arrays encode a complete tree over `n` leaves, with indices that fit in u32. -/
structure KTree.Complete (nodes : List KNode) (T : KTree) : Prop where
  enc : T.Encoded nodes
  root : T.ref = (0, false)
  leaves : T.leaves = List.range (nodes.length + 1)
  ints : T.internals.Perm (List.range nodes.length)
  fits : 2 * nodes.length + 1 < 2 ^ 32

theorem complete_ref {nodes : List KNode} {T : KTree} (H : T.Complete nodes) (S : KTree) (hS : S ∈ T.subtrees) :
    cellIdx nodes.length S.ref < 2 * nodes.length + 1 ∧ (∀ i l r, S = .node i l r → i < nodes.length) := by
  cases S with
  | leaf k =>
    have := (leaves_subtrees T k).1 hS
    rw [H.leaves, List.mem_range] at this
    refine ⟨?_, fun i l r h => by cases h⟩
    simp only [KTree.ref, cellIdx, if_true]; omega
  | node i l r =>
    have := (internals_subtrees T i).2 ⟨l, r, hS⟩
    have := H.ints.mem_iff.1 this
    rw [List.mem_range] at this
    refine ⟨?_, fun i' l' r' h => by cases h; exact this⟩
    simp only [KTree.ref, cellIdx]
    simp; omega

theorem child_idx {off : Nat} (a : Nat) (b : Bool) (h : cellIdx off (a, b) < 2 ^ 32) (ho : off < 2 ^ 32) :
    u32add a (u32mul off (if b then 1 else 0)) = cellIdx off (a, b) := by
  unfold cellIdx at *
  unfold u32add u32mul
  cases b
  · simp only [Bool.false_eq_true, if_false, Nat.mul_zero, Nat.zero_mod, Nat.add_zero] at *
    rw [Nat.mod_eq_of_lt h]
  · simp only [if_true, Nat.mul_one] at *
    rw [Nat.mod_eq_of_lt ho, Nat.mod_eq_of_lt h]

theorem complete_children {nodes : List KNode} {T : KTree} (H : T.Complete nodes) (i : Nat) (l r : KTree)
    (hS : KTree.node i l r ∈ T.subtrees) : ∃ nd, nodes[i]? = some nd ∧ leftChild nodes.length nd = cellIdx nodes.length l.ref ∧
      rightChild nodes.length nd = cellIdx nodes.length r.ref := by
  obtain ⟨nd, h1, h2, h3, _, _, _⟩ := subtrees_encoded T _ H.enc hS
  have hf := H.fits
  have hl := (complete_ref H l (subtrees_trans T _ _ hS (by simp [KTree.subtrees, self_mem_subtrees]))).1
  have hr := (complete_ref H r (subtrees_trans T _ _ hS (by simp [KTree.subtrees, self_mem_subtrees]))).1
  refine ⟨nd, h1, ?_, ?_⟩
  · rw [← h2] at hl ⊢; exact child_idx _ _ (by omega) (by omega)
  · rw [← h3] at hr ⊢; exact child_idx _ _ (by omega) (by omega)

/-! ### Propagation -/

section
variable {α : Type}

/-- State of the shared buffer when all subtrees of depth at most `k` are up to date. -/
def UpTo (comb : α → α → α) (leafv : Nat → α) (nodes : List KNode) (T : KTree) (k : Nat) (m : List α) : Prop :=
  m.length = 2 * nodes.length + 1 ∧ ∀ S ∈ T.subtrees, S.depth ≤ k → m[cellIdx nodes.length S.ref]? = some (S.value comb leafv)

/-- Invariant inside the launch number `k + 1`. -/
structure PInv (comb : α → α → α) (leafv : Nat → α) (nodes : List KNode) (T : KTree) (k : Nat) (st : KState (List α) α) : Prop where
  up : UpTo comb leafv nodes T k st.mem
  idle : ∀ t, nodes.length ≤ t → st.rem t = []
  item : ∀ t nd, nodes[t]? = some nd →
    (st.rem t = [readStep (leftChild nodes.length nd), readStep (rightChild nodes.length nd), combineStep comb t] ∧ st.loc t = []) ∨
    (∃ x, st.rem t = [readStep (rightChild nodes.length nd), combineStep comb t] ∧ st.loc t = [x] ∧
      ∀ l r, KTree.node t l r ∈ T.subtrees → l.depth ≤ k → x = l.value comb leafv) ∨
    (∃ x y, st.rem t = [combineStep comb t] ∧ st.loc t = [x, y] ∧
      ∀ l r, KTree.node t l r ∈ T.subtrees → l.depth ≤ k → r.depth ≤ k → x = l.value comb leafv ∧ y = r.value comb leafv) ∨
    (st.rem t = [] ∧ ∀ l r, KTree.node t l r ∈ T.subtrees → l.depth ≤ k → r.depth ≤ k →
      st.mem[t]? = some ((KTree.node t l r).value comb leafv))

theorem PInv_step {comb : α → α → α} {leafv : Nat → α} {nodes : List KNode} {T : KTree} (H : T.Complete nodes) (k : Nat)
    (st : KState (List α) α) (h : PInv comb leafv nodes T k st) (t : Nat) :
    ∃ st', st.step t = some st' ∧ PInv comb leafv nodes T k st' ∧
      (∀ j, (st'.rem j).length = if j = t then (st.rem j).length - 1 else (st.rem j).length) := by
  by_cases ht : t < nodes.length
  · have hnd : nodes[t]? = some nodes[t] := List.getElem?_eq_getElem ht
    -- every item has a subtree
    obtain ⟨l0, r0, hlr⟩ := (internals_subtrees T t).1 (H.ints.mem_iff.2 (List.mem_range.2 ht))
    obtain ⟨nd, e1, e2, e3⟩ := complete_children H t l0 r0 hlr
    have hlen := h.up.1
    have hcl := (complete_ref H l0 (subtrees_trans T _ _ hlr (by simp [KTree.subtrees, self_mem_subtrees]))).1
    have hcr := (complete_ref H r0 (subtrees_trans T _ _ hlr (by simp [KTree.subtrees, self_mem_subtrees]))).1
    have hother : ∀ (st' : KState (List α) α), (∀ j, j ≠ t → st'.rem j = st.rem j ∧ st'.loc j = st.loc j) →
        (∀ j : Nat, j ≠ t → st'.mem[j]? = st.mem[j]?) → ∀ j nd, j ≠ t → nodes[j]? = some nd →
        (st'.rem j = [readStep (leftChild nodes.length nd), readStep (rightChild nodes.length nd), combineStep comb j] ∧ st'.loc j = []) ∨
        (∃ x, st'.rem j = [readStep (rightChild nodes.length nd), combineStep comb j] ∧ st'.loc j = [x] ∧
          ∀ l r, KTree.node j l r ∈ T.subtrees → l.depth ≤ k → x = l.value comb leafv) ∨
        (∃ x y, st'.rem j = [combineStep comb j] ∧ st'.loc j = [x, y] ∧
          ∀ l r, KTree.node j l r ∈ T.subtrees → l.depth ≤ k → r.depth ≤ k → x = l.value comb leafv ∧ y = r.value comb leafv) ∨
        (st'.rem j = [] ∧ ∀ l r, KTree.node j l r ∈ T.subtrees → l.depth ≤ k → r.depth ≤ k →
          st'.mem[j]? = some ((KTree.node j l r).value comb leafv)) := by
      intro st' h1 h2 j nd hj hjn
      rw [(h1 j hj).1, (h1 j hj).2, h2 j hj]
      exact h.item j nd hjn
    have hread : ∀ (a : Nat), a < st.mem.length → ∃ v, st.mem[a]? = some v := fun a ha => ⟨_, List.getElem?_eq_getElem ha⟩
    rcases h.item t nd e1 with ⟨hr, hl⟩ | ⟨x, hr, hl, hx⟩ | ⟨x, y, hr, hl, hxy⟩ | ⟨hr, hfin⟩
    · -- first read
      obtain ⟨v, hv⟩ := hread (leftChild nodes.length nd) (by rw [e2]; omega)
      refine ⟨⟨fun j => if j = t then [readStep (rightChild nodes.length nd), combineStep comb t] else st.rem j,
        fun j => if j = t then [v] else st.loc j, st.mem⟩, ?_, ⟨h.up, ?_, ?_⟩, ?_⟩
      · unfold KState.step
        rw [hr]
        simp only [readStep, hv, hl, Option.map_some, Option.bind_eq_bind, Option.bind_some, List.nil_append, Option.pure_def]
      · intro j hj
        simp only
        rw [if_neg (by omega)]; exact h.idle j hj
      · intro j nd' hj
        by_cases hjt : j = t
        · subst hjt
          rw [e1, Option.some.injEq] at hj
          subst hj
          right; left
          refine ⟨v, by simp, by simp, ?_⟩
          intro l r hS hd
          obtain ⟨nd', f1, f2, f3⟩ := complete_children H j l r hS
          rw [e1, Option.some.injEq] at f1
          subst f1
          have := h.up.2 l (subtrees_trans T _ _ hS (by simp [KTree.subtrees, self_mem_subtrees])) hd
          rw [← f2, hv, Option.some.injEq] at this
          exact this
        · refine hother _ ?_ ?_ j nd' hjt hj
          · intro j hj; simp [hj]
          · intro _ _; rfl
      · intro j
        simp only
        split
        · rename_i hj; subst hj; rw [hr]; rfl
        · rfl
    · -- second read
      obtain ⟨v, hv⟩ := hread (rightChild nodes.length nd) (by rw [e3]; omega)
      refine ⟨⟨fun j => if j = t then [combineStep comb t] else st.rem j,
        fun j => if j = t then [x, v] else st.loc j, st.mem⟩, ?_, ⟨h.up, ?_, ?_⟩, ?_⟩
      · unfold KState.step
        rw [hr]
        simp only [readStep, hv, hl, Option.map_some, Option.bind_eq_bind, Option.bind_some, List.singleton_append, Option.pure_def]
      · intro j hj
        simp only
        rw [if_neg (by omega)]; exact h.idle j hj
      · intro j nd' hj
        by_cases hjt : j = t
        · subst hjt
          rw [e1, Option.some.injEq] at hj
          subst hj
          right; right; left
          refine ⟨x, v, by simp, by simp, ?_⟩
          intro l r hS hd hd'
          obtain ⟨nd', f1, f2, f3⟩ := complete_children H j l r hS
          rw [e1, Option.some.injEq] at f1
          subst f1
          have := h.up.2 r (subtrees_trans T _ _ hS (by simp [KTree.subtrees, self_mem_subtrees])) hd'
          rw [← f3, hv, Option.some.injEq] at this
          exact ⟨hx l r hS hd, this⟩
        · refine hother _ ?_ ?_ j nd' hjt hj
          · intro j hj; simp [hj]
          · intro _ _; rfl
      · intro j
        simp only
        split
        · rename_i hj; subst hj; rw [hr]; rfl
        · rfl
    · -- write
      refine ⟨⟨fun j => if j = t then [] else st.rem j,
        fun j => if j = t then [] else st.loc j, st.mem.set t (comb x y)⟩, ?_, ⟨⟨?_, ?_⟩, ?_, ?_⟩, ?_⟩
      · unfold KState.step
        rw [hr]
        simp only [combineStep, hl, if_pos (show t < st.mem.length by omega), Option.bind_eq_bind, Option.bind_some, Option.pure_def]
      · simp only [List.length_set]; exact hlen
      · intro S hS hd
        simp only
        by_cases hc : cellIdx nodes.length S.ref = t
        · cases S with
          | leaf j => simp only [KTree.ref, cellIdx, if_true] at hc; omega
          | node j l r =>
            obtain rfl : j = t := by simpa [KTree.ref, cellIdx] using hc
            have hd' : l.depth ≤ k ∧ r.depth ≤ k := by simp only [KTree.depth] at hd; omega
            obtain ⟨p, q⟩ := hxy l r hS hd'.1 hd'.2
            rw [hc, List.getElem?_set_self (by omega), p, q]; rfl
        · rw [List.getElem?_set_ne (fun h => hc h.symm)]
          exact h.up.2 S hS hd
      · intro j hj
        simp only
        rw [if_neg (by omega)]; exact h.idle j hj
      · intro j nd' hj
        by_cases hjt : j = t
        · subst hjt
          right; right; right
          refine ⟨by simp, ?_⟩
          intro l r hS hd hd'
          obtain ⟨p, q⟩ := hxy l r hS hd hd'
          simp only
          rw [List.getElem?_set_self (by omega), p, q]; rfl
        · exact hother _ (fun j hj => by simp [hj]) (fun j hj => by
            simp only; rw [List.getElem?_set_ne (fun h => hj h.symm)]) j nd' hjt hj
      · intro j
        simp only
        split
        · rename_i hj; subst hj; rw [hr]; rfl
        · rfl
    · refine ⟨st, by unfold KState.step; rw [hr], h, ?_⟩
      intro j
      split
      · rename_i hj; subst hj; rw [hr]; rfl
      · rfl
  · refine ⟨st, by unfold KState.step; rw [h.idle t (by omega)], h, ?_⟩
    intro j
    split
    · rename_i hj; subst hj; rw [h.idle j (by omega)]; rfl
    · rfl

theorem PInv_exec {comb : α → α → α} {leafv : Nat → α} {nodes : List KNode} {T : KTree} (H : T.Complete nodes) (k : Nat) :
    ∀ (sched : List Nat) (st : KState (List α) α), PInv comb leafv nodes T k st →
    ∃ st', st.exec sched = some st' ∧ PInv comb leafv nodes T k st' ∧ (∀ j, (st'.rem j).length = (st.rem j).length - sched.count j) := by
  intro sched
  induction sched with
  | nil => intro st h; exact ⟨st, rfl, h, fun k => by simp⟩
  | cons t r ih =>
    intro st h
    obtain ⟨s1, a1, a2, a3⟩ := PInv_step H k st h t
    obtain ⟨s2, b1, b2, b3⟩ := ih s1 a2
    refine ⟨s2, ?_, b2, ?_⟩
    · simp only [KState.exec, a1, Option.bind_eq_bind, Option.bind_some]; exact b1
    · intro k
      rw [b3 k, a3 k, List.count_cons]
      by_cases hk : k = t
      · subst hk; simp; omega
      · have : ¬ t = k := fun h => hk h.symm
        simp [hk, this]

theorem launch_up {comb : α → α → α} {leafv : Nat → α} {nodes : List KNode} {T : KTree} (H : T.Complete nodes) (k : Nat)
    (sched : List Nat) (m : List α) (h : UpTo comb leafv nodes T k m) :
    ∃ m', kLaunch nodes.length (propItem comb nodes.length nodes) [] sched m = some m' ∧ UpTo comb leafv nodes T (k + 1) m' := by
  have hinit : PInv comb leafv nodes T k
      (⟨fun t => if t < nodes.length then propItem comb nodes.length nodes t else [], fun _ => [], m⟩ : KState (List α) α) := by
    refine ⟨h, fun t ht => by simp only; rw [if_neg (by omega)], ?_⟩
    intro t nd hnd
    left
    have ht : t < nodes.length := by
      by_contra hc
      rw [List.getElem?_eq_none (by omega)] at hnd
      cases hnd
    refine ⟨?_, rfl⟩
    simp only [propItem, if_pos ht, hnd]
  obtain ⟨st, h1, h2, h3⟩ := PInv_exec H k (sched ++ drain (propItem comb nodes.length nodes) nodes.length) _ hinit
  refine ⟨st.mem, by unfold kLaunch; rw [h1]; rfl, h2.up.1, ?_⟩
  intro S hS hd
  by_cases hk : S.depth ≤ k
  · exact h2.up.2 S hS hk
  · cases S with
    | leaf j => simp only [KTree.depth] at hk; omega
    | node i l r =>
      have ht := (complete_ref H _ hS).2 i l r rfl
      have hz : (st.rem i).length = 0 := by
        have := h3 i
        simp only [if_pos ht, List.count_append] at this
        have := drain_count (propItem comb nodes.length nodes) nodes.length i ht
        omega
      simp only [KTree.depth] at hd
      have hi : cellIdx nodes.length (KTree.node i l r).ref = i := by simp [KTree.ref, cellIdx]
      rw [hi]
      rcases h2.item i nodes[i] (List.getElem?_eq_getElem ht) with ⟨hr, _⟩ | ⟨x, hr, _⟩ | ⟨x, y, hr, _⟩ | ⟨_, hfin⟩
      · rw [hr] at hz; simp at hz
      · rw [hr] at hz; simp at hz
      · rw [hr] at hz; simp at hz
      · exact hfin l r hS (by omega) (by omega)

theorem propagate_up {comb : α → α → α} {leafv : Nat → α} {nodes : List KNode} {T : KTree} (H : T.Complete nodes)
    (hpos : nodes.length ≠ 0) : ∀ (scheds : List (List Nat)) (k : Nat) (m : List α), UpTo comb leafv nodes T k m →
    ∃ m', propagateUp comb nodes scheds m = some m' ∧ UpTo comb leafv nodes T (k + scheds.length) m' := by
  intro scheds
  induction scheds with
  | nil => intro k m h; exact ⟨m, rfl, h⟩
  | cons s r ih =>
    intro k m h
    obtain ⟨m1, a1, a2⟩ := launch_up H k s m h
    obtain ⟨m2, b1, b2⟩ := ih (k + 1) m1 a2
    refine ⟨m2, ?_, ?_⟩
    · unfold propagateUp
      rw [if_neg hpos, a1, Option.bind_some]; exact b1
    · rw [List.length_cons, show k + (r.length + 1) = k + 1 + r.length by omega]; exact b2

/-- Value of a non empty list combined from left to right. -/
def fold1 (comb : α → α → α) : List α → Option α
  | [] => none
  | x :: r => some (r.foldl comb x)

theorem foldl_comb_assoc {comb : α → α → α} (ha : ∀ x y z, comb (comb x y) z = comb x (comb y z)) : ∀ (l : List α) (x y : α),
    comb x (l.foldl comb y) = l.foldl comb (comb x y) := by
  intro l
  induction l with
  | nil => intro x y; rfl
  | cons a l ih => intro x y; rw [List.foldl_cons, List.foldl_cons, ih, ha]

theorem value_fold1 {comb : α → α → α} (ha : ∀ x y z, comb (comb x y) z = comb x (comb y z)) (leafv : Nat → α) : ∀ T : KTree,
    fold1 comb (T.leaves.map leafv) = some (T.value comb leafv) := by
  intro T
  induction T with
  | leaf k => rfl
  | node i l r ihl ihr =>
    show fold1 comb ((l.leaves ++ r.leaves).map leafv) = some (comb (l.value comb leafv) (r.value comb leafv))
    rw [List.map_append]
    generalize l.leaves.map leafv = A at *
    generalize r.leaves.map leafv = B at *
    cases A with
    | nil => simp [fold1] at ihl
    | cons a A =>
      cases B with
      | nil => simp [fold1] at ihr
      | cons b B =>
        simp only [fold1, Option.some.injEq] at ihl ihr
        simp only [fold1, List.cons_append, List.foldl_append, List.foldl_cons, Option.some.injEq]
        rw [← ihl, ← ihr, foldl_comb_assoc ha]

/-- C08. For a complete tree over the arrays and at least as many launches as its depth, with any schedule of each launch: the
propagation ends, leaves the leaf entries as they were, and the entry of each cell is the combination of the values below it. -/
theorem C08_propagate_up (comb : α → α → α) (nodes : List KNode) (T : KTree) (H : T.Complete nodes) (scheds : List (List Nat))
    (hdepth : T.depth ≤ scheds.length) (m : List α) (leafv : Nat → α) (hlen : m.length = 2 * nodes.length + 1)
    (hleaf : ∀ k, k ≤ nodes.length → m[nodes.length + k]? = some (leafv k)) :
    ∃ m', propagateUp comb nodes scheds m = some m' ∧ m'.length = m.length ∧
      (∀ k, k ≤ nodes.length → m'[nodes.length + k]? = some (leafv k)) ∧
      ∀ S ∈ T.subtrees, m'[cellIdx nodes.length S.ref]? = some (S.value comb leafv) := by
  have hpos : nodes.length ≠ 0 := by
    intro h0
    have := H.ints
    rw [h0] at this
    cases T with
    | leaf k => have := H.root; simp [KTree.ref] at this
    | node i l r => simp [KTree.internals] at this
  have h0 : UpTo comb leafv nodes T 0 m := by
    refine ⟨hlen, ?_⟩
    intro S hS hd
    cases S with
    | leaf k =>
      have := (leaves_subtrees T k).1 hS
      rw [H.leaves, List.mem_range] at this
      have h := hleaf k (by omega)
      simp only [KTree.ref, cellIdx, if_true, KTree.value]
      rw [Nat.add_comm]; exact h
    | node i l r => simp [KTree.depth] at hd
  obtain ⟨m', h1, h2⟩ := propagate_up H hpos scheds 0 m h0
  refine ⟨m', h1, by rw [h2.1, hlen], ?_, ?_⟩
  · intro k hk
    have hmem : KTree.leaf k ∈ T.subtrees := (leaves_subtrees T k).2 (by rw [H.leaves, List.mem_range]; omega)
    have := h2.2 _ hmem (by simp [KTree.depth])
    simp only [KTree.ref, cellIdx, if_true, KTree.value] at this
    rw [Nat.add_comm]; exact this
  · intro S hS
    exact h2.2 S hS (by have := subtrees_depth T S hS; omega)

/-- C08 for the trees that the code builds: for strictly increasing codes and an associative combination, after `tree_depth` launches
(each with any schedule) the entry of internal cell `i` is the combination, in order, of the values of the leaves it covers. -/
theorem C08_karras_propagate {w n : Nat} {c : Nat → BitVec w} (hs : ∀ i j, i < j → j < n → (c i).toNat < (c j).toNat) (h2 : 2 ≤ n)
    (hn : n ≤ 2 ^ 24 + 1) (comb : α → α → α) (ha : ∀ x y z, comb (comb x y) z = comb x (comb y z)) (scheds : List (List Nat))
    (hd : scheds.length = karrasTreeDepth w) (m : List α) (leafv : Nat → α) (hlen : m.length = 2 * n - 1)
    (hleaf : ∀ k, k < n → m[n - 1 + k]? = some (leafv k)) :
    ∃ nodes m', karrasTree n c = some nodes ∧ propagateUp comb nodes scheds m = some m' ∧ m'.length = 2 * n - 1 ∧
      (∀ k, k < n → m'[n - 1 + k]? = some (leafv k)) ∧
      ∀ (i : Nat) (nd : KNode), nodes[i]? = some nd →
        m'[i]? = fold1 comb ((List.range' (min i nd.endRange) (max i nd.endRange + 1 - min i nd.endRange)).map leafv) := by
  obtain ⟨nodes, T, k1, k2, k3, k4, k5, k6, k7⟩ := C05_karras_tree hs h2 hn 0 (by omega) (fun i _ => (c i).isLt)
  have H : T.Complete nodes := ⟨k3, k4, by rw [k5, k2]; congr 1; omega, by rw [k2]; exact k6, by omega⟩
  unfold karrasTreeDepth at hd
  obtain ⟨m', p1, p2, p3, p4⟩ := C08_propagate_up comb nodes T H scheds (by omega) m leafv (by omega) (by
    intro k hk; rw [k2]; exact hleaf k (by omega))
  refine ⟨nodes, m', k1, p1, by omega, ?_, ?_⟩
  · intro k hk
    have := p3 k (by omega)
    rw [k2] at this; exact this
  · intro i nd hi
    have hil : i < nodes.length := by
      by_contra hc
      rw [List.getElem?_eq_none (by omega)] at hi
      cases hi
    obtain ⟨l, r, hlr⟩ := (internals_subtrees T i).1 (H.ints.mem_iff.2 (List.mem_range.2 hil))
    have h1 := p4 _ hlr
    have hidx : cellIdx nodes.length (KTree.node i l r).ref = i := by simp [KTree.ref, cellIdx]
    rw [hidx] at h1
    obtain ⟨nd', e1, _, _, e4, _, _⟩ := subtrees_encoded T _ k3 hlr
    rw [hi, Option.some.injEq] at e1
    subst e1
    rw [h1, ← value_fold1 ha leafv (KTree.node i l r), ← e4]
    rfl

theorem fold1_max {β : Type} [LinearOrder β] : ∀ (l : List β) (v : β), fold1 max l = some v → v ∈ l ∧ ∀ x ∈ l, x ≤ v := by
  intro l
  cases l with
  | nil => intro v h; simp [fold1] at h
  | cons a l =>
    induction l generalizing a with
    | nil => intro v h; simp [fold1] at h; subst h; simp
    | cons b l ih =>
      intro v h
      simp only [fold1, List.foldl_cons] at h
      obtain ⟨h1, h2⟩ := ih (max a b) v h
      constructor
      · rcases List.mem_cons.1 h1 with h1 | h1
        · rcases max_choice a b with hm | hm
          · rw [h1, hm]; simp
          · rw [h1, hm]; simp
        · simp [h1]
      · intro x hx
        have hab := h2 (max a b) (by simp)
        rcases List.mem_cons.1 hx with rfl | hx
        · exact le_trans (le_max_left _ _) hab
        · rcases List.mem_cons.1 hx with rfl | hx
          · exact le_trans (le_max_right _ _) hab
          · exact h2 x (List.mem_cons_of_mem _ hx)

/-- C08 for `compute_tree_field_max_field` (and, on each component, for the box upper corners; the lower corners are the same with the
reversed order): the value of a cell is the largest value among the leaves it covers. -/
theorem C08_field_max {β : Type} [LinearOrder β] {w n : Nat} {c : Nat → BitVec w} (hs : ∀ i j, i < j → j < n → (c i).toNat < (c j).toNat)
    (h2 : 2 ≤ n) (hn : n ≤ 2 ^ 24 + 1) (scheds : List (List Nat)) (hd : scheds.length = karrasTreeDepth w) (m : List β)
    (leafv : Nat → β) (hlen : m.length = 2 * n - 1) (hleaf : ∀ k, k < n → m[n - 1 + k]? = some (leafv k)) :
    ∃ nodes m', karrasTree n c = some nodes ∧ propagateUp max nodes scheds m = some m' ∧
      ∀ (i : Nat) (nd : KNode), nodes[i]? = some nd → ∃ v, m'[i]? = some v ∧
        (∃ k, min i nd.endRange ≤ k ∧ k ≤ max i nd.endRange ∧ v = leafv k) ∧
        ∀ k, min i nd.endRange ≤ k → k ≤ max i nd.endRange → leafv k ≤ v := by
  obtain ⟨nodes, m', a1, a2, a3, a4, a5⟩ := C08_karras_propagate hs h2 hn max max_assoc scheds hd m leafv hlen hleaf
  refine ⟨nodes, m', a1, a2, ?_⟩
  intro i nd hi
  have h5 := a5 i nd hi
  have hle : min i nd.endRange ≤ max i nd.endRange := by omega
  generalize min i nd.endRange = a at *
  generalize max i nd.endRange = b at *
  have hil : i < m'.length := by
    obtain ⟨_, _, k1, k2, _⟩ := C05_karras_tree hs h2 hn 0 (by omega) (fun i _ => (c i).isLt)
    rw [a1, Option.some.injEq] at k1
    subst k1
    have : i < nodes.length := by
      by_contra hc
      rw [List.getElem?_eq_none (by omega)] at hi
      cases hi
    omega
  rw [List.getElem?_eq_getElem hil] at h5
  obtain ⟨h6, h7⟩ := fold1_max _ _ h5.symm
  refine ⟨_, List.getElem?_eq_getElem hil, ?_, ?_⟩
  · obtain ⟨k, hk, he⟩ := List.mem_map.1 h6
    rw [List.mem_range'_1] at hk
    exact ⟨k, hk.1, by omega, he.symm⟩
  · intro k k1 k2
    exact h7 _ (List.mem_map.2 ⟨k, by rw [List.mem_range'_1]; omega, rfl⟩)

end

/-- A concrete run: the tree of six codes, a launch order that interleaves the items, junk in the internal entries. -/
example : (karrasTree 6 (fun k => (#[1#8, 2#8, 4#8, 5#8, 19#8, 24#8])[k]!)).bind (fun nodes =>
    propagateUp max nodes (List.replicate 8 [0, 1, 2, 3, 4, 4, 3, 1]) [90, 91, 92, 93, 94, 3, 7, 5, 2, 6, 1]) =
    some [7, 7, 5, 7, 6, 3, 7, 5, 2, 6, 1] := by decide +kernel

end Shamrock
