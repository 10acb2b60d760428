import Verif.Proof.TreeDown
/-! The downward pass: the launches, under any schedule. -/
namespace Shamrock.SelfGrav

open Shamrock

section
variable {α : Type}

/-- Work item of the downward pass. -/
def downItemAt (add : α → α → α) (sh : Nat → Nat → α → α) (nodes : List KNode) (gid : Nat) : List (KStep (LLoc α) (Bool × α)) :=
  match nodes[gid]? with
  | none => [fun _ _ => none]
  | some nd => downSteps add (sh gid (leftChild nodes.length nd)) (sh gid (rightChild nodes.length nd)) gid (leftChild nodes.length nd)
      (rightChild nodes.length nd)

/-- The launches. -/
def downAt (add : α → α → α) (sh : Nat → Nat → α → α) (nodes : List KNode) : List (List Nat) → List (Bool × α) → Option (List (Bool × α))
  | [], m => some m
  | s :: r, m => (kLaunch nodes.length (downItemAt add sh nodes) ⟨true, none, none, none⟩ s m).bind (downAt add sh nodes r)

variable {add : α → α → α} {sh : Nat → Nat → α → α} {nodes : List KNode} {own : Nat → α} {T : KTree}

theorem whole_children (W : WholeTree nodes T) {i : Nat} {l r : KTree} (h : KTree.node i l r ∈ T.subtrees) :
    ∃ nd, nodes[i]? = some nd ∧ leftChild nodes.length nd = cellIdx nodes.length l.ref ∧
      rightChild nodes.length nd = cellIdx nodes.length r.ref := by
  rcases W with H | ⟨rfl, rfl⟩
  · exact complete_children H i l r h
  · simp [KTree.subtrees] at h

theorem whole_item (W : WholeTree nodes T) {i : Nat} {l r : KTree} (h : KTree.node i l r ∈ T.subtrees) :
    downItemAt add sh nodes i = downSteps add (sh i (cellIdx nodes.length l.ref)) (sh i (cellIdx nodes.length r.ref)) i
      (cellIdx nodes.length l.ref) (cellIdx nodes.length r.ref) := by
  obtain ⟨nd, a, b, c⟩ := whole_children W h
  unfold downItemAt
  simp only [a, b, c]

theorem idx_lt (W : WholeTree nodes T) {S : KTree} (hS : S ∈ T.subtrees) : cellIdx nodes.length S.ref < 2 * nodes.length + 1 :=
  (whole_cells W _).2 ⟨S, hS, rfl⟩

/-- Stage of node `i l r`. -/
abbrev NodeStage (add : α → α → α) (sh : Nat → Nat → α → α) (off : Nat) (own : Nat → α) (T : KTree) (F0 : Nat → Prop) (i : Nat) (l r : KTree)
    (k : Nat) (loc : LLoc α) (m : List (Bool × α)) : Prop :=
  Stage (fun v => ∃ p, Down add sh off own T (.node i l r) p v) (own (cellIdx off l.ref)) (own (cellIdx off r.ref))
    (fun v => add (own (cellIdx off l.ref)) (sh i (cellIdx off l.ref) v)) (fun v => add (own (cellIdx off r.ref)) (sh i (cellIdx off r.ref) v))
    (F0 i) k loc m[i]? m[cellIdx off l.ref]? m[cellIdx off r.ref]?

structure DInv (add : α → α → α) (sh : Nat → Nat → α → α) (nodes : List KNode) (own : Nat → α) (T : KTree) (F0 : Nat → Prop)
    (st : KState (LLoc α) (Bool × α)) : Prop where
  len : st.mem.length = 2 * nodes.length + 1
  root : st.mem[0]? = some (true, own 0)
  idle : ∀ t, nodes.length ≤ t → st.rem t = []
  flags : ∀ c, F0 c → ∃ v, st.mem[c]? = some (true, v)
  item : ∀ i l r, KTree.node i l r ∈ T.subtrees → ∃ k ≤ 10, st.rem i = (downItemAt add sh nodes i).drop k ∧
    NodeStage add sh nodes.length own T F0 i l r k (st.loc i) st.mem

theorem flag_down (W : WholeTree nodes T) {F0 : Nat → Prop} {m : List (Bool × α)} (h0 : m[0]? = some (true, own 0))
    (h : ∀ i l r, KTree.node i l r ∈ T.subtrees → ∃ k loc, NodeStage add sh nodes.length own T F0 i l r k loc m) {S : KTree}
    (hS : S ∈ T.subtrees) {v : α} (hv : m[cellIdx nodes.length S.ref]? = some (true, v)) : ∃ p, Down add sh nodes.length own T S p v := by
  by_cases hST : S = T
  · subst hST
    rw [whole_root W, h0] at hv
    simp only [Option.some.injEq, Prod.mk.injEq, true_and] at hv
    subst hv
    have := Down.root (add := add) (sh := sh) (off := nodes.length) (own := own) (T := S)
    rw [whole_root W] at this
    exact ⟨_, this⟩
  · obtain ⟨N, h1, h2⟩ := proper_parent T S hS hST
    cases N with
    | leaf k => simp [kidsOf] at h2
    | node i l r =>
      obtain ⟨k, loc, hs⟩ := h i l r h1
      simp only [kidsOf, List.mem_cons, List.not_mem_nil, or_false] at h2
      rcases h2 with rfl | rfl
      · obtain ⟨w, ⟨p, hp⟩, rfl⟩ := hs.leftFlag hv
        exact ⟨_, hp.left⟩
      · obtain ⟨w, ⟨p, hp⟩, rfl⟩ := hs.rightFlag hv
        exact ⟨_, hp.right⟩

theorem node_lt (W : WholeTree nodes T) {i : Nat} {l r : KTree} (h : KTree.node i l r ∈ T.subtrees) : i < nodes.length :=
  List.mem_range.1 ((whole_ints W).mem_iff.1 ((internals_subtrees T i).2 ⟨l, r, h⟩))

theorem node_idx {off i : Nat} {l r : KTree} : cellIdx off (KTree.node i l r).ref = i := by simp [KTree.ref, cellIdx]

theorem DInv_step (W : WholeTree nodes T) {F0 : Nat → Prop} (st : KState (LLoc α) (Bool × α)) (h : DInv add sh nodes own T F0 st) (t : Nat) :
    ∃ st', st.step t = some st' ∧ DInv add sh nodes own T F0 st' ∧
      (∀ j, (st'.rem j).length = if j = t then (st.rem j).length - 1 else (st.rem j).length) := by
  have done : st.rem t = [] → ∃ st', st.step t = some st' ∧ DInv add sh nodes own T F0 st' ∧
      (∀ j, (st'.rem j).length = if j = t then (st.rem j).length - 1 else (st.rem j).length) := by
    intro hr
    refine ⟨st, by unfold KState.step; rw [hr], h, ?_⟩
    intro j
    split
    · rename_i hj; subst hj; rw [hr]; rfl
    · rfl
  by_cases ht : t < nodes.length
  · obtain ⟨l, r, hlr⟩ := (internals_subtrees T t).1 ((whole_ints W).mem_iff.2 (List.mem_range.2 ht))
    obtain ⟨k, hk, hr, hst⟩ := h.item t l r hlr
    have hit := whole_item (add := add) (sh := sh) W hlr
    by_cases hk10 : k = 10
    · subst hk10
      apply done
      rw [hr, hit]
      rfl
    · have hall : ∀ i l r, KTree.node i l r ∈ T.subtrees → ∃ k loc, NodeStage add sh nodes.length own T F0 i l r k loc st.mem := by
        intro i l r hs
        obtain ⟨k, _, _, hh⟩ := h.item i l r hs
        exact ⟨k, _, hh⟩
      obtain ⟨s, loc', m', e1, e2, e3, e4⟩ := stage_step (add := add) _ _ _ (sh t (cellIdx nodes.length l.ref)) (sh t (cellIdx nodes.length r.ref))
        (F0 t) t _ _ (kids_ne W hlr) k (by omega) (st.loc t) st.mem (by rw [h.len]; omega) (h.flags t)
        (fun v hv => flag_down W h.root hall hlr (by rw [node_idx]; exact hv)) hst
      have hrem : st.rem t = s :: (downItemAt add sh nodes t).drop (k + 1) := by
        rw [hr, hit]
        exact (List.drop_eq_getElem_cons (by simpa [downSteps] using Nat.lt_of_le_of_ne hk hk10)).trans
          (by
            have := (List.getElem?_eq_some_iff.1 e1).2
            rw [this])
      refine ⟨⟨fun j => if j = t then (downItemAt add sh nodes t).drop (k + 1) else st.rem j, fun j => if j = t then loc' else st.loc j, m'⟩,
        ?_, ?_, ?_⟩
      · unfold KState.step
        rw [hrem]
        simp only [e2, Option.bind_eq_bind, Option.bind_some, Option.pure_def]
      · have keep : ∀ (c : Nat) (v : α), st.mem[c]? = some (true, v) → m'[c]? = some (true, v) := by
          intro c v hv
          rcases e4 with rfl | ⟨d, x, y, _, hd, rfl⟩
          · exact hv
          · rw [List.getElem?_set_ne]
            · exact hv
            · rintro rfl; rw [hd] at hv; simp at hv
        refine ⟨?_, keep _ _ h.root, ?_, ?_, ?_⟩
        · rcases e4 with rfl | ⟨d, x, y, _, hd, rfl⟩
          · exact h.len
          · simp only [List.length_set]; exact h.len
        · intro j hj
          show (if j = t then _ else st.rem j) = []
          rw [if_neg (by omega)]; exact h.idle j hj
        · intro c hc
          obtain ⟨v, hv⟩ := h.flags c hc
          exact ⟨v, keep c v hv⟩
        · intro i l' r' hs
          by_cases hi : i = t
          · subst hi
            have := idx_inj W hs hlr (by rw [node_idx, node_idx])
            simp only [KTree.node.injEq, true_and] at this
            obtain ⟨rfl, rfl⟩ := this
            refine ⟨k + 1, by omega, ?_, ?_⟩
            · show (if i = i then _ else st.rem i) = _
              rw [if_pos rfl]
            · show NodeStage add sh nodes.length own T F0 i l' r' (k + 1) (if i = i then loc' else st.loc i) m'
              rw [if_pos rfl]
              exact e3
          · obtain ⟨k', hk', hr', hst'⟩ := h.item i l' r' hs
            refine ⟨k', hk', ?_, ?_⟩
            · show (if i = t then _ else st.rem i) = _
              rw [if_neg hi]; exact hr'
            · show NodeStage add sh nodes.length own T F0 i l' r' k' (if i = t then loc' else st.loc i) m'
              rw [if_neg hi]
              have hsame : ∀ c ∈ kidsOf (KTree.node i l' r'), m'[cellIdx nodes.length c.ref]? = st.mem[cellIdx nodes.length c.ref]? := by
                intro c hc
                rcases e4 with rfl | ⟨d, x, y, hd', hd, rfl⟩
                · rfl
                · rw [List.getElem?_set_ne]
                  intro hdc
                  have : ∃ c' ∈ kidsOf (KTree.node t l r), cellIdx nodes.length c.ref = cellIdx nodes.length c'.ref := by
                    rcases hd' with rfl | rfl
                    · exact ⟨l, by simp [kidsOf], hdc.symm⟩
                    · exact ⟨r, by simp [kidsOf], hdc.symm⟩
                  obtain ⟨c', hc', he⟩ := this
                  have := kid_parent W hs hlr hc hc' he
                  simp only [KTree.node.injEq] at this
                  exact hi this.1
              unfold NodeStage
              rw [hsame l' (by simp [kidsOf]), hsame r' (by simp [kidsOf])]
              exact hst'.mono (keep i)
      · intro j
        show (if j = t then (downItemAt add sh nodes t).drop (k + 1) else st.rem j).length = _
        split
        · rename_i hj; subst hj; rw [hrem]; rfl
        · rfl
  · exact done (h.idle t (by omega))

theorem DInv_exec (W : WholeTree nodes T) {F0 : Nat → Prop} : ∀ (sched : List Nat) (st : KState (LLoc α) (Bool × α)),
    DInv add sh nodes own T F0 st → ∃ st', st.exec sched = some st' ∧ DInv add sh nodes own T F0 st' ∧
      (∀ j, (st'.rem j).length = (st.rem j).length - sched.count j) := by
  intro sched
  induction sched with
  | nil => intro st h; exact ⟨st, rfl, h, fun k => by simp⟩
  | cons t r ih =>
    intro st h
    obtain ⟨s1, a1, a2, a3⟩ := DInv_step W st h t
    obtain ⟨s2, b1, b2, b3⟩ := ih s1 a2
    refine ⟨s2, ?_, b2, ?_⟩
    · simp only [KState.exec, a1, Option.bind_eq_bind, Option.bind_some]; exact b1
    · intro k
      rw [b3 k, a3 k, List.count_cons]
      by_cases hk : k = t
      · subst hk; simp; omega
      · have : ¬ t = k := fun h => hk h.symm
        simp [hk, this]

/-- State of the shared buffer between the launches, after `k` of them. -/
structure DState (add : α → α → α) (sh : Nat → Nat → α → α) (nodes : List KNode) (own : Nat → α) (T : KTree) (k : Nat) (m : List (Bool × α)) :
    Prop where
  len : m.length = 2 * nodes.length + 1
  root : m[0]? = some (true, own 0)
  node : ∀ i l r, KTree.node i l r ∈ T.subtrees →
    (∃ p v, Down add sh nodes.length own T (.node i l r) p v ∧
      m[cellIdx nodes.length l.ref]? = some (true, add (own (cellIdx nodes.length l.ref)) (sh i (cellIdx nodes.length l.ref) v)) ∧
      m[cellIdx nodes.length r.ref]? = some (true, add (own (cellIdx nodes.length r.ref)) (sh i (cellIdx nodes.length r.ref) v))) ∨
    (m[cellIdx nodes.length l.ref]? = some (false, own (cellIdx nodes.length l.ref)) ∧
      m[cellIdx nodes.length r.ref]? = some (false, own (cellIdx nodes.length r.ref)))
  upto : ∀ S p v, Down add sh nodes.length own T S p v → p.length ≤ k + 1 → ∃ x, m[cellIdx nodes.length S.ref]? = some (true, x)

theorem launch_down (W : WholeTree nodes T) (k : Nat) (sched : List Nat) (m : List (Bool × α)) (h : DState add sh nodes own T k m) :
    ∃ m', kLaunch nodes.length (downItemAt add sh nodes) ⟨true, none, none, none⟩ sched m = some m' ∧ DState add sh nodes own T (k + 1) m' := by
  let F0 : Nat → Prop := fun c => ∃ S p v, Down add sh nodes.length own T S p v ∧ cellIdx nodes.length S.ref = c ∧ p.length ≤ k + 1
  have hinit : DInv add sh nodes own T F0
      (⟨fun t => if t < nodes.length then downItemAt add sh nodes t else [], fun _ => ⟨true, none, none, none⟩, m⟩ :
        KState (LLoc α) (Bool × α)) := by
    refine ⟨h.len, h.root, fun t ht => by simp only; rw [if_neg (by omega)], ?_, ?_⟩
    · rintro c ⟨S, p, v, h1, h2, h3⟩
      rw [← h2]
      exact h.upto S p v h1 h3
    · intro i l r hs
      refine ⟨0, by omega, ?_, ?_⟩
      · simp only [if_pos (node_lt W hs), List.drop_zero]
      · refine Or.inr ⟨rfl, Or.inl ⟨rfl, ?_⟩⟩
        rcases h.node i l r hs with ⟨p, v, a, b, c⟩ | hh
        · exact Or.inl ⟨v, ⟨p, a⟩, b, c⟩
        · exact Or.inr hh
  obtain ⟨st, h1, h2, h3⟩ := DInv_exec W (sched ++ drain (downItemAt add sh nodes) nodes.length) _ hinit
  have hend : ∀ i l r, KTree.node i l r ∈ T.subtrees → NodeStage add sh nodes.length own T F0 i l r 10 (st.loc i) st.mem := by
    intro i l r hs
    obtain ⟨k', hk', hr, hh⟩ := h2.item i l r hs
    have hz : (st.rem i).length = 0 := by
      have := h3 i
      simp only [if_pos (node_lt W hs), List.count_append] at this
      have := drain_count (downItemAt add sh nodes) nodes.length i (node_lt W hs)
      omega
    rw [hr, whole_item W hs] at hz
    simp only [downSteps, List.length_drop, List.length_cons, List.length_nil] at hz
    obtain rfl : k' = 10 := by omega
    exact hh
  have hnode : ∀ i l r, KTree.node i l r ∈ T.subtrees →
      (∃ p v, Down add sh nodes.length own T (.node i l r) p v ∧
        st.mem[cellIdx nodes.length l.ref]? = some (true, add (own (cellIdx nodes.length l.ref)) (sh i (cellIdx nodes.length l.ref) v)) ∧
        st.mem[cellIdx nodes.length r.ref]? = some (true, add (own (cellIdx nodes.length r.ref)) (sh i (cellIdx nodes.length r.ref) v))) ∨
      (st.mem[cellIdx nodes.length l.ref]? = some (false, own (cellIdx nodes.length l.ref)) ∧
        st.mem[cellIdx nodes.length r.ref]? = some (false, own (cellIdx nodes.length r.ref)) ∧ ¬F0 i) := by
    intro i l r hs
    rcases hend i l r hs with ⟨_, ⟨v, ⟨p, hp⟩, a, b⟩ | hh⟩ | ⟨_, hh⟩
    · exact Or.inl ⟨p, v, hp, a, b⟩
    · exact Or.inr hh
    · rcases hh with ⟨hk, _⟩ | ⟨hk, _⟩ | ⟨hk, _⟩ | ⟨hk, _⟩ | ⟨hk, _⟩ | ⟨hk, _⟩ | ⟨hk, _⟩ | ⟨hk, _⟩ | ⟨hk, _⟩ | ⟨_, v, ⟨p, hp⟩, a, b⟩
      · omega
      · omega
      · omega
      · omega
      · omega
      · omega
      · omega
      · omega
      · omega
      · exact Or.inl ⟨p, v, hp, a, b⟩
  refine ⟨st.mem, by unfold kLaunch; rw [h1]; rfl, h2.len, h2.root, ?_, ?_⟩
  · intro i l r hs
    rcases hnode i l r hs with hh | ⟨a, b, _⟩
    · exact Or.inl hh
    · exact Or.inr ⟨a, b⟩
  · intro S p v hd hp
    cases hd with
    | root => rw [whole_root W]; exact ⟨_, h2.root⟩
    | @left i l r p v hd =>
      have hs := (down_mem hd).1
      simp only [List.length_cons] at hp
      rcases hnode i S r hs with ⟨_, _, _, a, _⟩ | ⟨_, _, hn⟩
      · exact ⟨_, a⟩
      · exact absurd ⟨_, p, v, hd, node_idx, by omega⟩ hn
    | @right i l r p v hd =>
      have hs := (down_mem hd).1
      simp only [List.length_cons] at hp
      rcases hnode i l S hs with ⟨_, _, _, _, a⟩ | ⟨_, _, hn⟩
      · exact ⟨_, a⟩
      · exact absurd ⟨_, p, v, hd, node_idx, by omega⟩ hn

theorem launches_down (W : WholeTree nodes T) : ∀ (scheds : List (List Nat)) (k : Nat) (m : List (Bool × α)),
    DState add sh nodes own T k m → ∃ m', downAt add sh nodes scheds m = some m' ∧ DState add sh nodes own T (k + scheds.length) m' := by
  intro scheds
  induction scheds with
  | nil => intro k m h; exact ⟨m, rfl, h⟩
  | cons s r ih =>
    intro k m h
    obtain ⟨m1, a1, a2⟩ := launch_down W k s m h
    obtain ⟨m2, b1, b2⟩ := ih (k + 1) m1 a2
    refine ⟨m2, ?_, ?_⟩
    · unfold downAt
      rw [a1, Option.bind_some]; exact b1
    · rw [List.length_cons, show k + (r.length + 1) = k + 1 + r.length by omega]; exact b2

theorem DState.stage {F0 : Nat → Prop} {k : Nat} {m : List (Bool × α)} (h : DState add sh nodes own T k m) :
    ∀ i l r, KTree.node i l r ∈ T.subtrees → ∃ k loc, NodeStage add sh nodes.length own T F0 i l r k loc m := by
  intro i l r hs
  refine ⟨0, ⟨true, none, none, none⟩, Or.inr ⟨rfl, Or.inl ⟨rfl, ?_⟩⟩⟩
  rcases h.node i l r hs with ⟨p, v, a, b, c⟩ | hh
  · exact Or.inl ⟨v, ⟨p, a⟩, b, c⟩
  · exact Or.inr hh

/-- The whole downward pass, started from the own values of the cells. -/
theorem down_ok (W : WholeTree nodes T) (scheds : List (List Nat)) (hd : T.depth ≤ scheds.length) (ownL : List α)
    (hlen : ownL.length = 2 * nodes.length + 1) (hown : ∀ c v, ownL[c]? = some v → own c = v) :
    ∃ m, downAt add sh nodes scheds ((ownL.map fun d => (false, d)).set 0 (true, own 0)) = some m ∧ m.length = 2 * nodes.length + 1 ∧
      ∀ S ∈ T.subtrees, ∃ p v, Down add sh nodes.length own T S p v ∧ m[cellIdx nodes.length S.ref]? = some (true, v) := by
  have hget : ∀ c, c ≠ 0 → c < 2 * nodes.length + 1 → ((ownL.map fun d => (false, d)).set 0 (true, own 0))[c]? = some (false, own c) := by
    intro c h0 hc
    rw [List.getElem?_set_ne (Ne.symm h0), List.getElem?_map, List.getElem?_eq_getElem (by omega), Option.map_some,
      hown c _ (List.getElem?_eq_getElem (by omega))]
  have h0 : DState add sh nodes own T 0 ((ownL.map fun d => (false, d)).set 0 (true, own 0)) := by
    have hr : ((ownL.map fun d => (false, d)).set 0 (true, own 0))[0]? = some (true, own 0) := by
      rw [List.getElem?_set_self (by simp [hlen])]
    refine ⟨by simp [hlen], hr, ?_, ?_⟩
    · intro i l r hs
      right
      exact ⟨hget _ (kid_not_root W hs (by simp [kidsOf])) (idx_lt W (kid_mem hs).1),
        hget _ (kid_not_root W hs (by simp [kidsOf])) (idx_lt W (kid_mem hs).2)⟩
    · intro S p v hd hp
      cases hd with
      | root => rw [whole_root W]; exact ⟨_, hr⟩
      | left hd =>
        have := (down_mem hd).2
        rw [List.length_cons] at hp
        have := List.length_pos_of_mem this
        omega
      | right hd =>
        have := (down_mem hd).2
        rw [List.length_cons] at hp
        have := List.length_pos_of_mem this
        omega
  obtain ⟨m, a, b⟩ := launches_down W scheds 0 _ h0
  refine ⟨m, a, b.len, ?_⟩
  intro S hS
  obtain ⟨p, v, h1, h2⟩ := down_exists T [T] _ Down.root S hS
  obtain ⟨x, hx⟩ := b.upto S p v h1 (by simp only [List.length_cons, List.length_nil] at h2; omega)
  obtain ⟨p', hp'⟩ := flag_down (F0 := fun _ => False) W b.root b.stage hS hx
  exact ⟨p', x, hp', hx⟩

end

end Shamrock.SelfGrav
