import Verif.Props.TreeOps
/-! Theorems on the stack traversal: C09. -/
namespace Shamrock

/-- What a recursive traversal reports: descend while the condition holds, left child first. -/
def KTree.visit (off : Nat) (cond : Nat → Bool) : KTree → List TEvent
  | .leaf k => if cond (cellIdx off (k, true)) then [.found (cellIdx off (k, true))] else [.excluded (cellIdx off (k, true))]
  | .node i l r => if cond i then l.visit off cond ++ r.visit off cond else [.excluded i]

/-- The subtrees all of whose proper ancestors are accepted. -/
inductive KTree.Reached (off : Nat) (cond : Nat → Bool) : KTree → KTree → Prop
  | here (T) : KTree.Reached off cond T T
  | left {T i l r} : KTree.Reached off cond T (.node i l r) → cond i = true → KTree.Reached off cond T l
  | right {T i l r} : KTree.Reached off cond T (.node i l r) → cond i = true → KTree.Reached off cond T r

/-- Number of cells. -/
def KTree.size : KTree → Nat
  | .leaf _ => 1
  | .node _ l r => l.size + r.size + 1

theorem size_pos (T : KTree) : 1 ≤ T.size := by cases T <;> simp [KTree.size]

section
variable {nodes : List KNode} {cond : Nat → Bool}

/-- The pending subtrees `P` (top first) fit in a stack of `D` entries until the end. -/
def Fits (D : Nat) : List KTree → Prop
  | [] => True
  | S :: r => r.length + 1 + S.depth ≤ D ∧ Fits D r

/-- The stack array holds the pending subtrees from the cursor on. -/
def Holds (D off : Nat) (st : List Nat) (c : Nat) (P : List KTree) : Prop :=
  st.length = D ∧ c + P.length = D ∧ ∀ (j : Nat) (S : KTree), P[j]? = some S → st[c + j]? = some (cellIdx off S.ref)

theorem holds_pop {D off : Nat} {st : List Nat} {c : Nat} {S : KTree} {P : List KTree} (h : Holds D off st c (S :: P)) (v : Nat) :
    st[c]? = some (cellIdx off S.ref) ∧ c < D ∧ Holds D off (st.set c v) (c + 1) P := by
  obtain ⟨h1, h2, h3⟩ := h
  rw [List.length_cons] at h2
  refine ⟨by simpa using h3 0 S rfl, by omega, by rw [List.length_set]; exact h1, by omega, ?_⟩
  intro j S' hj
  rw [List.getElem?_set_ne (by omega), show c + 1 + j = c + (j + 1) by omega]
  exact h3 (j + 1) S' (by simpa using hj)

theorem holds_push {D off : Nat} {st : List Nat} {c : Nat} {P : List KTree} (h : Holds D off st c P) (S : KTree) (hc : P.length + 1 ≤ D) :
    ∃ st', pushId st c (cellIdx off S.ref) = some (st', c - 1) ∧ Holds D off st' (c - 1) (S :: P) := by
  obtain ⟨h1, h2, h3⟩ := h
  refine ⟨st.set (c - 1) (cellIdx off S.ref), ?_, ?_⟩
  · unfold pushId
    rw [if_neg (by omega)]
  · refine ⟨by rw [List.length_set]; exact h1, by rw [List.length_cons]; omega, ?_⟩
    intro j S' hj
    cases j with
    | zero =>
      simp only [List.getElem?_cons_zero, Option.some.injEq] at hj
      subst hj
      rw [Nat.add_zero, List.getElem?_set_self (by omega)]
    | succ j =>
      rw [List.getElem?_set_ne (by omega), show c - 1 + (j + 1) = c + j by omega]
      exact h3 j S' (by simpa using hj)

theorem travLoop_spec {T : KTree} (H : T.Complete nodes) (D : Nat) : ∀ (fuel : Nat) (P : List KTree) (st : List Nat) (c : Nat)
    (ev : List TEvent), (∀ S ∈ P, S ∈ T.subtrees) → Fits D P → Holds D nodes.length st c P →
    (P.map KTree.size).sum < fuel →
    travLoop D nodes.length nodes cond fuel st c ev = some (ev ++ P.flatMap (KTree.visit nodes.length cond)) := by
  intro fuel
  induction fuel with
  | zero => intro P st c ev _ _ _ h; omega
  | succ fuel ih =>
    intro P st c ev hsub hfit hold hfuel
    cases P with
    | nil =>
      unfold travLoop
      have := hold.2.1
      rw [if_neg (by simp at this; omega)]
      simp
    | cons S P =>
      obtain ⟨p1, p2, p3⟩ := holds_pop hold u32max
      have hS := hsub S (by simp)
      have hsub' : ∀ S ∈ P, S ∈ T.subtrees := fun S h => hsub S (List.mem_cons_of_mem _ h)
      rw [List.map_cons, List.sum_cons] at hfuel
      have hsz := size_pos S
      unfold travLoop
      rw [if_pos p2, p1, Option.bind_some]
      by_cases hc : cond (cellIdx nodes.length S.ref) = true
      · rw [if_pos hc]
        cases S with
        | leaf k =>
          have hle : nodes.length ≤ cellIdx nodes.length (KTree.leaf k).ref := by simp [KTree.ref, cellIdx]
          rw [if_pos hle, ih P _ _ _ hsub' hfit.2 p3 (by omega)]
          rw [List.flatMap_cons, ← List.append_assoc]
          congr 2
          have hc' : cond (cellIdx nodes.length (k, true)) = true := hc
          simp only [KTree.visit]
          rw [if_pos hc']; rfl
        | node i l r =>
          have hi := (complete_ref H _ hS).2 i l r rfl
          have hidx : cellIdx nodes.length (KTree.node i l r).ref = i := by simp [KTree.ref, cellIdx]
          rw [hidx] at hc ⊢
          rw [if_neg (by omega)]
          obtain ⟨nd, e1, e2, e3⟩ := complete_children H i l r hS
          obtain ⟨f1, f2⟩ := hfit
          simp only [KTree.depth] at f1
          obtain ⟨st1, q1, q2⟩ := holds_push p3 r (by omega)
          obtain ⟨st2, r1, r2⟩ := holds_push q2 l (by rw [List.length_cons]; omega)
          rw [e1, Option.bind_some, e3, q1, Option.bind_some, e2, r1, Option.bind_some]
          rw [ih (l :: r :: P) _ _ _ ?_ ?_ r2 ?_]
          · simp only [List.flatMap_cons, KTree.visit, if_pos hc, List.append_assoc]
          · intro S hS'
            rcases List.mem_cons.1 hS' with rfl | hS'
            · exact subtrees_trans T _ _ hS (by simp [KTree.subtrees, self_mem_subtrees])
            · rcases List.mem_cons.1 hS' with rfl | hS'
              · exact subtrees_trans T _ _ hS (by simp [KTree.subtrees, self_mem_subtrees])
              · exact hsub' S hS'
          · refine ⟨?_, ?_, f2⟩
            · rw [List.length_cons]; omega
            · omega
          · simp only [List.map_cons, List.sum_cons, KTree.size] at hfuel ⊢; omega
      · rw [if_neg hc, ih P _ _ _ hsub' hfit.2 p3 (by omega)]
        rw [List.flatMap_cons, ← List.append_assoc]
        congr 2
        cases S with
        | leaf k =>
          have hc' : ¬ cond (cellIdx nodes.length (k, true)) = true := hc
          simp only [KTree.visit]; rw [if_neg hc']; rfl
        | node i l r =>
          have hidx : cellIdx nodes.length (KTree.node i l r).ref = i := by simp [KTree.ref, cellIdx]
          rw [hidx] at hc ⊢
          simp only [KTree.visit]; rw [if_neg hc]

/-- C09. On a complete tree with `depth + 1 ≤ D` the traversal with a stack of `D` entries never leaves its array, ends, and reports
exactly what the recursive left-to-right descent reports. -/
theorem C09_traversal (T : KTree) (H : T.Complete nodes) (D : Nat) (hD : T.depth + 1 ≤ D) (cond : Nat → Bool) (fuel : Nat)
    (hf : T.size < fuel) : stackTraversal D nodes cond 0 fuel = some (T.visit nodes.length cond) := by
  unfold stackTraversal
  rw [if_neg (by omega)]
  have := travLoop_spec (cond := cond) H D fuel [T] ((List.replicate D 0).set (D - 1) 0) (D - 1) []
    (by intro S hS; rw [List.mem_singleton.1 hS]; exact self_mem_subtrees T) ⟨by simpa [Nat.add_comm] using hD, trivial⟩ ?_ (by simpa using hf)
  · simpa using this
  · refine ⟨by simp, by simp; omega, ?_⟩
    intro j S hj
    cases j with
    | zero =>
      simp only [List.getElem?_cons_zero, Option.some.injEq] at hj
      subst hj
      rw [Nat.add_zero, List.getElem?_set_self (by simp; omega), H.root]; rfl
    | succ j => simp at hj

theorem reached_trans {off : Nat} {A B C : KTree} (h1 : KTree.Reached off cond A B) (h2 : KTree.Reached off cond B C) :
    KTree.Reached off cond A C := by
  induction h2 with
  | here => exact h1
  | left _ hc ih => exact .left ih hc
  | right _ hc ih => exact .right ih hc

theorem reached_node {off i : Nat} {l r S : KTree} (h : KTree.Reached off cond (.node i l r) S) :
    S = .node i l r ∨ (cond i = true ∧ (KTree.Reached off cond l S ∨ KTree.Reached off cond r S)) := by
  induction h with
  | here => left; rfl
  | left h1 hc ih =>
    rcases ih with he | ⟨h2, h3 | h3⟩
    · cases he; exact Or.inr ⟨hc, Or.inl (.here _)⟩
    · exact Or.inr ⟨h2, Or.inl (.left h3 hc)⟩
    · exact Or.inr ⟨h2, Or.inr (.left h3 hc)⟩
  | right h1 hc ih =>
    rcases ih with he | ⟨h2, h3 | h3⟩
    · cases he; exact Or.inr ⟨hc, Or.inr (.here _)⟩
    · exact Or.inr ⟨h2, Or.inl (.right h3 hc)⟩
    · exact Or.inr ⟨h2, Or.inr (.right h3 hc)⟩

theorem reached_leaf {off k : Nat} {S : KTree} (h : KTree.Reached off cond (.leaf k) S) : S = .leaf k := by
  induction h with
  | here => rfl
  | left h1 hc ih => cases ih
  | right h1 hc ih => cases ih

theorem visit_found (off : Nat) (T : KTree) (id : Nat) : TEvent.found id ∈ T.visit off cond ↔
    ∃ k, KTree.Reached off cond T (.leaf k) ∧ id = off + k ∧ cond id = true := by
  induction T with
  | leaf k =>
    simp only [KTree.visit, cellIdx, if_true]
    constructor
    · intro h
      split at h
      · rename_i hc
        simp only [List.mem_singleton, TEvent.found.injEq] at h
        exact ⟨k, .here _, by omega, by rw [h]; exact hc⟩
      · simp at h
    · rintro ⟨k', h1, h2, h3⟩
      cases reached_leaf h1
      rw [show k + off = id by omega, if_pos h3]; simp
  | node i l r ihl ihr =>
    simp only [KTree.visit]
    constructor
    · intro h
      split at h
      · rename_i hc
        rcases List.mem_append.1 h with h | h
        · obtain ⟨k, h1, h2⟩ := ihl.1 h
          exact ⟨k, reached_trans (.left (.here _) hc) h1, h2⟩
        · obtain ⟨k, h1, h2⟩ := ihr.1 h
          exact ⟨k, reached_trans (.right (.here _) hc) h1, h2⟩
      · simp at h
    · rintro ⟨k, h1, h2⟩
      rcases reached_node h1 with h | ⟨hc, h | h⟩
      · cases h
      · rw [if_pos hc]; exact List.mem_append_left _ (ihl.2 ⟨k, h, h2⟩)
      · rw [if_pos hc]; exact List.mem_append_right _ (ihr.2 ⟨k, h, h2⟩)

theorem visit_excluded (off : Nat) (T : KTree) (id : Nat) : TEvent.excluded id ∈ T.visit off cond ↔
    ∃ S, KTree.Reached off cond T S ∧ id = cellIdx off S.ref ∧ cond id = false := by
  induction T with
  | leaf k =>
    simp only [KTree.visit]
    constructor
    · intro h
      split at h
      · simp at h
      · rename_i hc
        simp only [List.mem_singleton, TEvent.excluded.injEq] at h
        exact ⟨_, .here _, h, by rw [h]; simpa using hc⟩
    · rintro ⟨S, h1, h2, h3⟩
      cases reached_leaf h1
      simp only [KTree.ref] at h2
      rw [← h2, h3]; simp
  | node i l r ihl ihr =>
    have hidx : cellIdx off (KTree.node i l r).ref = i := by simp [KTree.ref, cellIdx]
    simp only [KTree.visit]
    constructor
    · intro h
      split at h
      · rename_i hc
        rcases List.mem_append.1 h with h | h
        · obtain ⟨k, h1, h2⟩ := ihl.1 h
          exact ⟨k, reached_trans (.left (.here _) hc) h1, h2⟩
        · obtain ⟨k, h1, h2⟩ := ihr.1 h
          exact ⟨k, reached_trans (.right (.here _) hc) h1, h2⟩
      · rename_i hc
        simp only [List.mem_singleton, TEvent.excluded.injEq] at h
        exact ⟨_, .here _, by rw [hidx]; exact h, by rw [h]; simpa using hc⟩
    · rintro ⟨S, h1, h2, h3⟩
      rcases reached_node h1 with h | ⟨hc, h | h⟩
      · subst h
        rw [hidx] at h2
        rw [← h2, h3]; simp
      · rw [if_pos hc]; exact List.mem_append_left _ (ihl.2 ⟨S, h, h2, h3⟩)
      · rw [if_pos hc]; exact List.mem_append_right _ (ihr.2 ⟨S, h, h2, h3⟩)

/-- Identifier of an event. -/
def TEvent.id : TEvent → Nat
  | .found i => i
  | .excluded i => i

/-- Cells of all the subtrees. -/
def KTree.cells (off : Nat) (T : KTree) : List Nat := T.subtrees.map fun S => cellIdx off S.ref

theorem visit_sublist (off : Nat) (T : KTree) : ((T.visit off cond).map TEvent.id).Sublist (T.cells off) := by
  induction T with
  | leaf k =>
    simp only [KTree.visit, KTree.cells, KTree.subtrees, List.map_cons, List.map_nil, KTree.ref]
    split <;> exact List.Sublist.refl _
  | node i l r ihl ihr =>
    have hidx : cellIdx off (KTree.node i l r).ref = i := by simp [KTree.ref, cellIdx]
    simp only [KTree.visit, KTree.cells, KTree.subtrees, List.map_cons, List.map_append, hidx] at *
    split
    · rw [List.map_append]; exact (ihl.append ihr).cons _
    · simp only [List.map_cons, List.map_nil, TEvent.id]
      exact List.Sublist.cons₂ _ (List.nil_sublist _)

theorem cells_perm (off : Nat) (T : KTree) : (T.cells off).Perm (T.leaves.map (· + off) ++ T.internals) := by
  induction T with
  | leaf k => simp [KTree.cells, KTree.subtrees, KTree.leaves, KTree.internals, KTree.ref, cellIdx]
  | node i l r ihl ihr =>
    have hidx : cellIdx off (KTree.node i l r).ref = i := by simp [KTree.ref, cellIdx]
    simp only [KTree.cells, KTree.subtrees, List.map_cons, List.map_append, hidx, KTree.leaves, KTree.internals] at *
    refine ((ihl.append ihr).cons i).trans ?_
    generalize l.leaves.map (· + off) = A
    generalize r.leaves.map (· + off) = B
    generalize l.internals = C
    generalize r.internals = D
    have e2 : (A ++ C ++ (B ++ D)).Perm (A ++ B ++ (C ++ D)) := by
      rw [List.append_assoc, List.append_assoc]
      refine List.Perm.append_left A ?_
      rw [← List.append_assoc, ← List.append_assoc]
      exact List.Perm.append_right D List.perm_append_comm
    refine (e2.cons _).trans ?_
    exact (List.perm_middle (a := i) (l₁ := A ++ B) (l₂ := C ++ D)).symm

/-- C09. The leaf callback is called on exactly the accepted leaves below accepted ancestors, the exclusion callback on exactly the
first rejected cells of the paths from the root, and no cell is reported twice. -/
theorem C09_traversal_exact (T : KTree) (H : T.Complete nodes) (D : Nat) (hD : T.depth + 1 ≤ D) (cond : Nat → Bool) :
    ∃ fuel0 events, (∀ fuel, fuel0 ≤ fuel → stackTraversal D nodes cond 0 fuel = some events) ∧
      (∀ id, .found id ∈ events ↔ ∃ k, KTree.Reached nodes.length cond T (.leaf k) ∧ id = nodes.length + k ∧ cond id = true) ∧
      (∀ id, .excluded id ∈ events ↔ ∃ S, KTree.Reached nodes.length cond T S ∧ id = cellIdx nodes.length S.ref ∧ cond id = false) ∧
      (events.map TEvent.id).Nodup := by
  refine ⟨T.size + 1, T.visit nodes.length cond, fun fuel hf => C09_traversal T H D hD cond fuel (by omega), ?_, ?_, ?_⟩
  · exact visit_found _ T
  · exact visit_excluded _ T
  · refine (visit_sublist nodes.length T).nodup ?_
    rw [(cells_perm nodes.length T).nodup_iff, List.nodup_append]
    refine ⟨?_, (H.ints.nodup_iff).2 List.nodup_range, ?_⟩
    · rw [H.leaves]
      exact List.Nodup.map (fun a b h => by simpa using h) List.nodup_range
    · intro a ha b hb hab
      obtain ⟨k, _, rfl⟩ := List.mem_map.1 ha
      have := List.mem_range.1 (H.ints.mem_iff.1 hb)
      omega

/-- C09 for the trees that the code builds: for strictly increasing codes with at most `sb` significant bits, the stack of `sb + 1`
entries that the iterators use (`MortonCodes::significant_bits + 1`, CLBVHObjectIterator.hpp:77, RadixTree.hpp:70) is large enough; the
leaves reported when every cell is accepted are all the leaves in order. -/
theorem C09_karras_stack {w n sb : Nat} {c : Nat → BitVec w} (hs : ∀ i j, i < j → j < n → (c i).toNat < (c j).toNat) (h2 : 2 ≤ n)
    (hn : n ≤ 2 ^ 24 + 1) (hsb : sb ≤ w) (hbits : ∀ i < n, (c i).toNat < 2 ^ sb) (cond : Nat → Bool) :
    ∃ (nodes : List KNode) (T : KTree), karrasTree n c = some nodes ∧ T.Complete nodes ∧
      ∃ fuel0, ∀ fuel, fuel0 ≤ fuel → stackTraversal (sb + 1) nodes cond 0 fuel = some (T.visit (n - 1) cond) := by
  obtain ⟨nodes, T, k1, k2, k3, k4, k5, k6, k7⟩ := C05_karras_tree hs h2 hn (w - sb) (by omega)
    (fun i hi => by rw [show w - (w - sb) = sb by omega]; exact hbits i hi)
  have H : T.Complete nodes := ⟨k3, k4, by rw [k5, k2]; congr 1; omega, by rw [k2]; exact k6, by omega⟩
  refine ⟨nodes, T, k1, H, T.size + 1, ?_⟩
  intro fuel hf
  rw [C09_traversal T H (sb + 1) (by omega) cond fuel (by omega), k2]

end

/-- The bound is tight: with full width codes a stack of `w` entries (instead of `w + 1`) is left by the traversal, for any fuel. -/
example : (karrasTree 5 (fun k => (#[0#4, 1#4, 2#4, 4#4, 8#4])[k]!)).bind (fun nodes => stackTraversal 4 nodes (fun _ => true) 0 100) = none := by
  decide +kernel

/-- A concrete run on the same tree with a stack of `w + 1` entries, cell 1 rejected. -/
example : (karrasTree 5 (fun k => (#[0#4, 1#4, 2#4, 4#4, 8#4])[k]!)).bind (fun nodes => stackTraversal 5 nodes (fun c => c != 2) 0 100) =
    some [.excluded 2, .found 7, .found 8] := by
  decide +kernel

end Shamrock
