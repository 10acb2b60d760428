import Verif.Proof.BVH
/-! Boxes of the cells and search. -/
namespace Shamrock

section
variable {F : Type} [LinearOrder F]

/-- `v` is the least value of `f` on the objects. -/
def AxLow (f : Nat → F) (objs : List Nat) (v : F) : Prop := (∀ i ∈ objs, v ≤ f i) ∧ ∃ i ∈ objs, f i = v
/-- `v` is the largest value of `f` on the objects. -/
def AxHigh (f : Nat → F) (objs : List Nat) (v : F) : Prop := (∀ i ∈ objs, f i ≤ v) ∧ ∃ i ∈ objs, f i = v

theorem axLow_append {f : Nat → F} {a b : List Nat} {u v : F} (hu : AxLow f a u) (hv : AxLow f b v) : AxLow f (a ++ b) (min u v) := by
  refine ⟨?_, ?_⟩
  · intro i hi
    rcases List.mem_append.1 hi with h | h
    · exact le_trans (min_le_left _ _) (hu.1 i h)
    · exact le_trans (min_le_right _ _) (hv.1 i h)
  · rcases min_choice u v with h | h <;> rw [h]
    · obtain ⟨i, hi, he⟩ := hu.2; exact ⟨i, List.mem_append_left _ hi, he⟩
    · obtain ⟨i, hi, he⟩ := hv.2; exact ⟨i, List.mem_append_right _ hi, he⟩

theorem axHigh_append {f : Nat → F} {a b : List Nat} {u v : F} (hu : AxHigh f a u) (hv : AxHigh f b v) : AxHigh f (a ++ b) (max u v) := by
  refine ⟨?_, ?_⟩
  · intro i hi
    rcases List.mem_append.1 hi with h | h
    · exact le_trans (hu.1 i h) (le_max_left _ _)
    · exact le_trans (hv.1 i h) (le_max_right _ _)
  · rcases max_choice u v with h | h <;> rw [h]
    · obtain ⟨i, hi, he⟩ := hu.2; exact ⟨i, List.mem_append_left _ hi, he⟩
    · obtain ⟨i, hi, he⟩ := hv.2; exact ⟨i, List.mem_append_right _ hi, he⟩

theorem axLow_singleton (f : Nat → F) (i : Nat) : AxLow f [i] (f i) := ⟨by simp, i, by simp, rfl⟩
theorem axHigh_singleton (f : Nat → F) (i : Nat) : AxHigh f [i] (f i) := ⟨by simp, i, by simp, rfl⟩

theorem foldl_axLow (f : Nat → F) : ∀ (l a : List Nat) (u : F), AxLow f a u → AxLow f (a ++ l) ((l.map f).foldl min u) := by
  intro l
  induction l with
  | nil => intro a u h; simpa using h
  | cons i l ih =>
    intro a u h
    have := ih (a ++ [i]) (min u (f i)) (axLow_append h (axLow_singleton f i))
    simpa using this

theorem foldl_axHigh (f : Nat → F) : ∀ (l a : List Nat) (u : F), AxHigh f a u → AxHigh f (a ++ l) ((l.map f).foldl max u) := by
  intro l
  induction l with
  | nil => intro a u h; simpa using h
  | cons i l ih =>
    intro a u h
    have := ih (a ++ [i]) (max u (f i)) (axHigh_append h (axHigh_singleton f i))
    simpa using this

theorem fold_axLow (f : Nat → F) (l : List Nat) (hl : l ≠ []) (big : F) (hb : ∀ i ∈ l, f i ≤ big) : AxLow f l ((l.map f).foldl min big) := by
  cases l with
  | nil => exact absurd rfl hl
  | cons i l =>
    rw [List.map_cons, List.foldl_cons, min_eq_right (hb i (by simp))]
    exact foldl_axLow f l [i] _ (axLow_singleton f i)

theorem fold_axHigh (f : Nat → F) (l : List Nat) (hl : l ≠ []) (small : F) (hb : ∀ i ∈ l, small ≤ f i) :
    AxHigh f l ((l.map f).foldl max small) := by
  cases l with
  | nil => exact absurd rfl hl
  | cons i l =>
    rw [List.map_cons, List.foldl_cons, max_eq_right (hb i (by simp))]
    exact foldl_axHigh f l [i] _ (axHigh_singleton f i)

/-- `a` is the lower corner of the objects with lower corners `P`. -/
def LowCorner (P : Nat → V3 F) (objs : List Nat) (a : V3 F) : Prop :=
  AxLow (fun i => (P i).x) objs a.x ∧ AxLow (fun i => (P i).y) objs a.y ∧ AxLow (fun i => (P i).z) objs a.z
/-- `b` is the upper corner of the objects with upper corners `P`. -/
def HighCorner (P : Nat → V3 F) (objs : List Nat) (b : V3 F) : Prop :=
  AxHigh (fun i => (P i).x) objs b.x ∧ AxHigh (fun i => (P i).y) objs b.y ∧ AxHigh (fun i => (P i).z) objs b.z

theorem foldl_vmin3 : ∀ (l : List (V3 F)) (a : V3 F),
    l.foldl vmin3 a = ⟨(l.map (·.x)).foldl min a.x, (l.map (·.y)).foldl min a.y, (l.map (·.z)).foldl min a.z⟩ := by
  intro l
  induction l with
  | nil => intro a; rfl
  | cons p l ih => intro a; rw [List.foldl_cons, ih]; rfl

theorem foldl_vmax3 : ∀ (l : List (V3 F)) (a : V3 F),
    l.foldl vmax3 a = ⟨(l.map (·.x)).foldl max a.x, (l.map (·.y)).foldl max a.y, (l.map (·.z)).foldl max a.z⟩ := by
  intro l
  induction l with
  | nil => intro a; rfl
  | cons p l ih => intro a; rw [List.foldl_cons, ih]; rfl

theorem leafAcc_low (P : Nat → V3 F) (pos : List (V3 F)) (ids : List Nat) (hne : ids ≠ []) (hp : ∀ i ∈ ids, pos[i]? = some (P i)) (big : F)
    (hb : ∀ i ∈ ids, (P i).x ≤ big ∧ (P i).y ≤ big ∧ (P i).z ≤ big) :
    ∃ a, leafAcc vmin3 ⟨big, big, big⟩ pos ids = some a ∧ LowCorner P ids a := by
  unfold leafAcc
  rw [mapM_opt_map _ P ids hp]
  refine ⟨_, rfl, ?_⟩
  rw [foldl_vmin3]
  simp only [List.map_map]
  exact ⟨fold_axLow _ ids hne big (fun i hi => (hb i hi).1), fold_axLow _ ids hne big (fun i hi => (hb i hi).2.1),
    fold_axLow _ ids hne big (fun i hi => (hb i hi).2.2)⟩

theorem leafAcc_high (P : Nat → V3 F) (pos : List (V3 F)) (ids : List Nat) (hne : ids ≠ []) (hp : ∀ i ∈ ids, pos[i]? = some (P i)) (small : F)
    (hb : ∀ i ∈ ids, small ≤ (P i).x ∧ small ≤ (P i).y ∧ small ≤ (P i).z) :
    ∃ a, leafAcc vmax3 ⟨small, small, small⟩ pos ids = some a ∧ HighCorner P ids a := by
  unfold leafAcc
  rw [mapM_opt_map _ P ids hp]
  refine ⟨_, rfl, ?_⟩
  rw [foldl_vmax3]
  simp only [List.map_map]
  exact ⟨fold_axHigh _ ids hne small (fun i hi => (hb i hi).1), fold_axHigh _ ids hne small (fun i hi => (hb i hi).2.1),
    fold_axHigh _ ids hne small (fun i hi => (hb i hi).2.2)⟩

theorem value_prop {α : Type} (comb : α → α → α) (leafv : Nat → α) (L : Nat → List Nat) (R : List Nat → α → Prop)
    (hcomb : ∀ a b u v, R a u → R b v → R (a ++ b) (comb u v)) : ∀ S : KTree, (∀ k ∈ S.leaves, R (L k) (leafv k)) →
    R (S.leaves.flatMap L) (S.value comb leafv) := by
  intro S
  induction S with
  | leaf k => intro h; simpa [KTree.leaves, KTree.value] using h k (by simp [KTree.leaves])
  | node i l r ihl ihr =>
    intro h
    simp only [KTree.leaves, KTree.value, List.flatMap_append]
    exact hcomb _ _ _ _ (ihl fun k hk => h k (by simp [KTree.leaves, hk])) (ihr fun k hk => h k (by simp [KTree.leaves, hk]))

section
variable {w n sb : Nat} {code : Nat → BitVec w} {sortMap redMap : List Nat} {nodes : List KNode} {T : KTree} {st : Nat → Nat}

theorem mem_leafObjs_lt (H : StructOk n sb code sortMap redMap nodes T st) (k : Nat) (hk : k ≤ nodes.length) (i : Nat)
    (hi : i ∈ leafObjs sortMap st k) : i < n := by
  rw [← List.mem_range, ← (all_objs H).mem_iff, List.mem_flatMap]
  exact ⟨k, by rw [List.mem_range]; omega, hi⟩

/-- One box buffer: the entry of every cell has the property `R` that the leaf kernel establishes and the combination preserves. -/
theorem aabbBuf_ok (H : StructOk n sb code sortMap redMap nodes T st) (comb : V3 F → V3 F → V3 F) (init : V3 F) (pos : List (V3 F))
    (scheds : List (List Nat)) (hd : sb ≤ scheds.length) (old : Nat → V3 F) (R : List Nat → V3 F → Prop)
    (hleaf : ∀ ids, ids ≠ [] → (∀ i ∈ ids, i < n) → ∃ a, leafAcc comb init pos ids = some a ∧ R ids a)
    (hcomb : ∀ a b u v, R a u → R b v → R (a ++ b) (comb u v)) :
    ∃ buf, aabbBuf comb init pos sortMap redMap nodes scheds old = some buf ∧ buf.length = 2 * nodes.length + 1 ∧
      ∀ S ∈ T.subtrees, ∃ a, buf[cellIdx nodes.length S.ref]? = some a ∧ R (S.leaves.flatMap (leafObjs sortMap st)) a := by
  have hl : ∀ k, ∃ a, k ≤ nodes.length → leafAcc comb init pos (leafObjs sortMap st k) = some a ∧ R (leafObjs sortMap st k) a := by
    intro k
    by_cases hk : k ≤ nodes.length
    · obtain ⟨a, h⟩ := hleaf _ (leafObjs_ne H k hk) (mem_leafObjs_lt H k hk); exact ⟨a, fun _ => h⟩
    · exact ⟨init, fun h => absurd h hk⟩
  choose leafv hleafv using hl
  unfold aabbBuf
  rw [mapM_range_some (nodes.length + 1) _ leafv (by
    intro k hk
    rw [forEachInLeaf_ok H k (by omega)]
    exact (hleafv k (by omega)).1)]
  obtain ⟨m', h1, h2, h3⟩ := whole_propagate H.whole comb scheds (by have := H.depth; omega)
    ((List.range nodes.length).map old ++ (List.range (nodes.length + 1)).map leafv) leafv (by simp; omega) (by
      intro k hk
      rw [List.getElem?_append_right (by simp), List.length_map, List.length_range, Nat.add_sub_cancel_left, List.getElem?_map,
        List.getElem?_range (by omega)]; rfl)
  refine ⟨m', h1, by rw [h2]; simp; omega, ?_⟩
  intro S hS
  exact ⟨_, h3 S hS, value_prop comb leafv _ R hcomb S (fun k hk => (hleafv k (subtree_leaf_le H S hS k hk)).2)⟩

/-! ### Search -/

/-- Leaves found by a traversal. -/
def foundLeaves (off : Nat) (ev : List TEvent) : List Nat := ev.filterMap fun
  | .found id => some (id - off)
  | .excluded _ => none

theorem foundLeaves_append (off : Nat) (a b : List TEvent) : foundLeaves off (a ++ b) = foundLeaves off a ++ foundLeaves off b := by
  unfold foundLeaves; rw [List.filterMap_append]

theorem foundLeaves_sublist (off : Nat) (cond : Nat → Bool) : ∀ S : KTree, (foundLeaves off (S.visit off cond)).Sublist S.leaves := by
  intro S
  induction S with
  | leaf k =>
    simp only [KTree.visit, KTree.leaves]
    split
    · simp [foundLeaves, cellIdx]
    · simp [foundLeaves]
  | node i l r ihl ihr =>
    simp only [KTree.visit, KTree.leaves]
    split
    · rw [foundLeaves_append]; exact ihl.append ihr
    · simp [foundLeaves]

theorem visit_ids (off : Nat) (cond : Nat → Bool) : ∀ (S : KTree) (id : Nat), TEvent.found id ∈ S.visit off cond →
    ∃ k ∈ S.leaves, id = off + k := by
  intro S
  induction S with
  | leaf k =>
    intro id h
    simp only [KTree.visit] at h
    split at h
    · simp [cellIdx] at h; exact ⟨k, by simp [KTree.leaves], by omega⟩
    · simp at h
  | node i l r ihl ihr =>
    intro id h
    simp only [KTree.visit] at h
    split at h
    · rcases List.mem_append.1 h with h | h
      · obtain ⟨k, a, b⟩ := ihl id h; exact ⟨k, by simp [KTree.leaves, a], b⟩
      · obtain ⟨k, a, b⟩ := ihr id h; exact ⟨k, by simp [KTree.leaves, a], b⟩
    · simp at h

/-- A leaf is found iff every cell above it (itself included) is accepted. -/
theorem mem_foundLeaves (off : Nat) (cond : Nat → Bool) (k : Nat) : ∀ S : KTree, S.leaves.Nodup → k ∈ S.leaves →
    (k ∈ foundLeaves off (S.visit off cond) ↔ ∀ R ∈ S.subtrees, k ∈ R.leaves → cond (cellIdx off R.ref) = true) := by
  intro S
  induction S with
  | leaf j =>
    intro _ hk
    simp only [KTree.leaves, List.mem_singleton] at hk
    subst hk
    simp only [KTree.visit, KTree.subtrees, List.mem_singleton, forall_eq, KTree.leaves, KTree.ref]
    by_cases hc : cond (cellIdx off (k, true)) = true
    · rw [if_pos hc]; simp [foundLeaves, cellIdx] at hc ⊢; exact hc
    · rw [if_neg hc]; simp only [foundLeaves, List.filterMap_cons, List.filterMap_nil, List.not_mem_nil, false_iff]
      intro h; exact hc (h trivial)
  | node i l r ihl ihr =>
    intro hnd hk
    simp only [KTree.leaves, List.nodup_append, List.mem_append] at hnd hk
    obtain ⟨nl, nr, hdis⟩ := hnd
    have hidx : cellIdx off (KTree.node i l r).ref = i := by simp [KTree.ref, cellIdx]
    have hself : (∀ R ∈ (KTree.node i l r).subtrees, k ∈ R.leaves → cond (cellIdx off R.ref) = true) ↔
        cond i = true ∧ (∀ R ∈ l.subtrees, k ∈ R.leaves → cond (cellIdx off R.ref) = true) ∧
          (∀ R ∈ r.subtrees, k ∈ R.leaves → cond (cellIdx off R.ref) = true) := by
      constructor
      · intro h
        refine ⟨?_, fun R hR => h R (by simp [KTree.subtrees, hR]), fun R hR => h R (by simp [KTree.subtrees, hR])⟩
        have := h (.node i l r) (self_mem_subtrees _) (by simp only [KTree.leaves, List.mem_append]; exact hk)
        rwa [hidx] at this
      · rintro ⟨h1, h2, h3⟩ R hR hkR
        simp only [KTree.subtrees, List.mem_cons, List.mem_append] at hR
        rcases hR with rfl | hR | hR
        · rw [hidx]; exact h1
        · exact h2 R hR hkR
        · exact h3 R hR hkR
    have out : ∀ U : KTree, k ∉ U.leaves → (∀ R ∈ U.subtrees, k ∈ R.leaves → cond (cellIdx off R.ref) = true) := by
      intro U hU R hR hkR
      exact absurd ((leaves_subtrees U k).1 (subtrees_trans U R _ hR ((leaves_subtrees R k).2 hkR))) hU
    have sub : ∀ U : KTree, k ∉ U.leaves → k ∉ foundLeaves off (U.visit off cond) := fun U hU h => hU ((foundLeaves_sublist off cond U).mem h)
    rw [hself]
    simp only [KTree.visit]
    by_cases hc : cond i = true
    · rw [if_pos hc, foundLeaves_append, List.mem_append]
      rcases hk with hk | hk
      · have hr : k ∉ r.leaves := fun h => hdis k hk k h rfl
        rw [ihl nl hk]
        constructor
        · rintro (h | h)
          · exact ⟨hc, h, out r hr⟩
          · exact absurd h (sub r hr)
        · rintro ⟨_, h, _⟩; exact Or.inl h
      · have hl : k ∉ l.leaves := fun h => hdis k h k hk rfl
        rw [ihr nr hk]
        constructor
        · rintro (h | h)
          · exact absurd h (sub l hl)
          · exact ⟨hc, out l hl, h⟩
        · rintro ⟨_, _, h⟩; exact Or.inr h
    · rw [if_neg hc]
      simp [foundLeaves, hc]

theorem sublist_flatMap {α β : Type} (f : α → List β) {a b : List α} (h : a.Sublist b) : (a.flatMap f).Sublist (b.flatMap f) := by
  induction h with
  | slnil => exact List.Sublist.refl _
  | cons x _ ih => simp only [List.flatMap_cons]; exact ih.trans (List.sublist_append_right _ _)
  | cons_cons x _ ih => simp only [List.flatMap_cons]; exact (List.Sublist.refl _).append ih

theorem rtreeFor_ok (C : MCode w) (t : BVH F) (H : StructOk n (3 * C.bits) code t.sortMap t.redMap t.nodes T st) (hn : n < 2 ^ 31)
    (accept : Nat → V3 F → V3 F → Bool) :
    rtreeFor C t accept = some ((foundLeaves t.nodes.length (T.visit t.nodes.length (boxCond t accept))).flatMap (leafObjs t.sortMap st)) := by
  unfold rtreeFor
  rw [whole_traversal H.whole _ (by have := H.depth; omega)]
  simp only [Option.bind_eq_bind, Option.bind_some]
  have hc := H.cells
  have key : ∀ ev : List TEvent, (∀ id, TEvent.found id ∈ ev → ∃ k ≤ t.nodes.length, id = t.nodes.length + k) →
      (ev.mapM (m := Option) fun
        | .found id => forEachInLeaf t.sortMap t.redMap (u32sub id t.nodes.length)
        | .excluded _ => some []).bind (fun r => some r.flatten) = some ((foundLeaves t.nodes.length ev).flatMap (leafObjs t.sortMap st)) := by
    intro ev
    induction ev with
    | nil => intro _; rfl
    | cons e ev ih =>
      intro h
      have ih' := ih (fun id hid => h id (List.mem_cons_of_mem _ hid))
      rw [List.mapM_cons]
      cases e with
      | found id =>
        obtain ⟨k, hk, rfl⟩ := h id (by simp)
        have hu : u32sub (t.nodes.length + k) t.nodes.length = k := by unfold u32sub; omega
        simp only [hu]
        rw [forEachInLeaf_ok H k hk]
        revert ih'
        generalize List.mapM (m := Option) _ ev = X
        intro ih'
        cases X with
        | none => simp at ih'
        | some y =>
          simp only [Option.bind_some, Option.some.injEq] at ih'
          simp only [Option.bind_eq_bind, Option.bind_some, Option.pure_def, List.flatten_cons, ih', foundLeaves, List.filterMap_cons,
            Nat.add_sub_cancel_left, List.flatMap_cons]
      | excluded id =>
        revert ih'
        generalize List.mapM (m := Option) _ ev = X
        intro ih'
        cases X with
        | none => simp at ih'
        | some y =>
          simp only [Option.bind_some, Option.some.injEq] at ih'
          simp only [Option.bind_eq_bind, Option.bind_some, Option.pure_def, List.flatten_cons, ih', foundLeaves, List.filterMap_cons,
            List.nil_append]
  refine key _ ?_
  intro id hid
  obtain ⟨k, hk, he⟩ := visit_ids _ _ T id hid
  exact ⟨k, subtree_leaf_le H T (self_mem_subtrees T) k hk, he⟩

end

end

end Shamrock
