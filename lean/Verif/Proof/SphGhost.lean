import Verif.Model.SphGhost
import Verif.Proof.Kernel
import Verif.Proof.SerialTree
/-! Proofs about the field on the patch tree. -/
namespace Shamrock

section
variable {F : Type}

/-- What the launches need of the serial tree. -/
structure TreeShape (s : SSt F) (level : Nat → Nat) : Prop where
  links : s.links.length = s.nodes.length
  kids : ∀ (i : Nat) nd, s.nodes[i]? = some nd → nd.childs.head? ≠ some u64max → nd.childs.length = 8 ∧
    ∀ c ∈ nd.childs, c < s.nodes.length ∧ level c = level i + 1
  lev : ∀ i < s.nodes.length, level i ≤ s.lev

/-- Internal node of the serial tree. -/
def Inner (s : SSt F) (i : Nat) (nd : SNode F) : Prop := s.nodes[i]? = some nd ∧ nd.childs.head? ≠ some u64max

section
variable [LinearOrder F] [Zero F]

/-- Values the tree field should have. -/
def treeVal (s : SSt F) (rho : Nat → F) : Nat → Nat → F
  | 0, i => (s.links[i]?.map rho).getD 0
  | k + 1, i =>
    match s.nodes[i]? with
    | none => 0
    | some nd => if nd.childs.head? ≠ some u64max then max8 (nd.childs.map (treeVal s rho k)) else (s.links[i]?.map rho).getD 0

theorem treeVal_stable {s : SSt F} {level : Nat → Nat} (T : TreeShape s level) (rho : Nat → F) : ∀ (k i : Nat), i < s.nodes.length → s.lev - level i ≤ k →
    treeVal s rho (k + 1) i = treeVal s rho k i := by
  intro k
  induction k with
  | zero =>
    intro i hi hk
    have hn : s.nodes[i]? = some s.nodes[i] := List.getElem?_eq_getElem hi
    show (match s.nodes[i]? with | none => 0 | some nd => if nd.childs.head? ≠ some u64max then max8 (nd.childs.map (treeVal s rho 0)) else (s.links[i]?.map rho).getD 0) = _
    rw [hn]
    dsimp only
    by_cases hc : s.nodes[i].childs.head? ≠ some u64max
    · exfalso
      obtain ⟨h8, hc'⟩ := T.kids i _ hn hc
      have hm : s.nodes[i].childs[0]'(by omega) ∈ s.nodes[i].childs := List.getElem_mem _
      obtain ⟨a, b⟩ := hc' _ hm
      have := T.lev _ a
      have := T.lev _ hi
      omega
    · rw [if_neg hc]; rfl
  | succ k ih =>
    intro i hi hk
    have hn : s.nodes[i]? = some s.nodes[i] := List.getElem?_eq_getElem hi
    rw [treeVal, treeVal, hn]
    dsimp only
    by_cases hc : s.nodes[i].childs.head? ≠ some u64max
    · rw [if_pos hc, if_pos hc]
      congr 1
      refine List.map_congr_left fun c hcm => ?_
      obtain ⟨a, b⟩ := (T.kids i _ hn hc).2 c hcm
      exact ih c a (by omega)
    · rw [if_neg hc, if_neg hc]

/-- The target value of each node. -/
def treeV (s : SSt F) (rho : Nat → F) (i : Nat) : F := treeVal s rho s.lev i

theorem treeV_inner {s : SSt F} {level : Nat → Nat} (T : TreeShape s level) (rho : Nat → F) (i : Nat) (nd : SNode F) (h : Inner s i nd) :
    treeV s rho i = max8 (nd.childs.map (treeV s rho)) := by
  have hi := (List.getElem?_eq_some_iff.1 h.1).1
  have := treeVal_stable T rho s.lev i hi (by omega)
  unfold treeV
  rw [← this, treeVal, h.1]
  dsimp only
  rw [if_pos h.2]

theorem treeV_leaf {s : SSt F} {level : Nat → Nat} (T : TreeShape s level) (rho : Nat → F) (i : Nat) (nd : SNode F) (h : s.nodes[i]? = some nd)
    (hc : ¬ nd.childs.head? ≠ some u64max) (l : Nat) (hl : s.links[i]? = some l) : treeV s rho i = rho l := by
  have hi := (List.getElem?_eq_some_iff.1 h).1
  have := treeVal_stable T rho s.lev i hi (by omega)
  unfold treeV
  rw [← this, treeVal, h]
  dsimp only
  rw [if_neg hc, hl]
  rfl

/-- Invariant inside a launch: `C` the nodes already correct. -/
structure FieldInv (s : SSt F) (V : Nat → F) (C : Nat → Prop) (st : KState (List F) F) : Prop where
  len : st.mem.length = s.nodes.length
  good : ∀ c, C c → st.mem[c]? = some (V c)
  idle : ∀ t, s.nodes.length ≤ t → st.rem t = []
  item : ∀ t nd, Inner s t nd →
    (∃ j, j ≤ nd.childs.length ∧ st.rem t = (nd.childs.drop j).map readStep ++ [reduceStep t] ∧
      ((∀ c ∈ nd.childs, C c) → st.loc t = (nd.childs.take j).map V)) ∨
    (st.rem t = [] ∧ ((∀ c ∈ nd.childs, C c) → st.mem[t]? = some (max8 (nd.childs.map V))))
  leaf : ∀ t nd, s.nodes[t]? = some nd → nd.childs.head? = some u64max → st.rem t = []

theorem FieldInv.step {s : SSt F} {level : Nat → Nat} (T : TreeShape s level) {V : Nat → F} {C : Nat → Prop}
    (hC : ∀ t nd, Inner s t nd → C t → (∀ c ∈ nd.childs, C c) ∧ V t = max8 (nd.childs.map V)) (st : KState (List F) F)
    (h : FieldInv s V C st) (t : Nat) :
    ∃ st', st.step t = some st' ∧ FieldInv s V C st' ∧ (∀ j, (st'.rem j).length = if j = t then (st.rem j).length - 1 else (st.rem j).length) := by
  have stay : st.rem t = [] → ∃ st', st.step t = some st' ∧ FieldInv s V C st' ∧
      (∀ j, (st'.rem j).length = if j = t then (st.rem j).length - 1 else (st.rem j).length) := by
    intro hr
    refine ⟨st, by unfold KState.step; rw [hr], h, fun j => ?_⟩
    split
    · rename_i hj; subst hj; rw [hr]; rfl
    · rfl
  by_cases ht : t < s.nodes.length
  · have hn : s.nodes[t]? = some s.nodes[t] := List.getElem?_eq_getElem ht
    by_cases hc : s.nodes[t].childs.head? = some u64max
    · exact stay (h.leaf t _ hn hc)
    · have hin : Inner s t s.nodes[t] := ⟨hn, hc⟩
      rcases h.item t _ hin with ⟨j, hj, hr, hl⟩ | ⟨hr, -⟩
      · rcases Nat.lt_or_ge j s.nodes[t].childs.length with hlt | hge
        · -- read
          generalize hnd : s.nodes[t] = nd at *
          have hd : nd.childs.drop j = nd.childs[j] :: nd.childs.drop (j + 1) := List.drop_eq_getElem_cons hlt
          rw [hd, List.map_cons, List.cons_append] at hr
          have hb := ((T.kids t nd hn hc).2 _ (List.getElem_mem hlt)).1
          have hv : st.mem[nd.childs[j]]? = some (st.mem[nd.childs[j]]'(by rw [h.len]; exact hb)) := List.getElem?_eq_getElem _
          generalize st.mem[nd.childs[j]]'(by rw [h.len]; exact hb) = v at hv
          refine ⟨⟨fun q => if q = t then (nd.childs.drop (j + 1)).map readStep ++ [reduceStep t] else st.rem q,
            fun q => if q = t then st.loc t ++ [v] else st.loc q, st.mem⟩, ?_, ⟨h.len, h.good, ?_, ?_, ?_⟩, ?_⟩
          · unfold KState.step
            rw [hr]
            simp only [readStep, hv, Option.map_some, Option.bind_eq_bind, Option.bind_some, Option.pure_def]
          · intro q hq
            dsimp only
            rw [if_neg (by omega)]; exact h.idle q hq
          · intro q nd' hq
            by_cases hqt : q = t
            · subst hqt
              have : nd' = nd := by have := hq.1; rw [hn, Option.some.injEq] at this; exact this.symm
              subst this
              left
              refine ⟨j + 1, hlt, by simp, fun hall => ?_⟩
              dsimp only
              rw [if_pos rfl, hl hall, List.take_succ_eq_append_getElem hlt, List.map_append]
              have := h.good _ (hall _ (List.getElem_mem hlt))
              rw [hv, Option.some.injEq] at this
              rw [this]; rfl
            · dsimp only
              rw [if_neg hqt, if_neg hqt]
              exact h.item q nd' hq
          · intro q nd' hq hq'
            dsimp only
            by_cases hqt : q = t
            · subst hqt
              rw [hn, Option.some.injEq] at hq
              subst hq
              exact absurd hq' hc
            · rw [if_neg hqt]; exact h.leaf q nd' hq hq'
          · intro q
            dsimp only
            split
            · rename_i hq; subst hq; rw [hr, List.length_cons, Nat.add_sub_cancel]
            · rfl
        · -- write
          generalize hnd : s.nodes[t] = nd at *
          have hj' : j = nd.childs.length := by omega
          subst hj'
          rw [List.drop_length, List.map_nil, List.nil_append] at hr
          rw [List.take_length] at hl
          refine ⟨⟨fun q => if q = t then [] else st.rem q, fun q => if q = t then [] else st.loc q, st.mem.set t (max8 (st.loc t))⟩, ?_,
            ⟨?_, ?_, ?_, ?_, ?_⟩, ?_⟩
          · unfold KState.step
            rw [hr]
            simp only [reduceStep, if_pos (show t < st.mem.length by rw [h.len]; exact ht), Option.bind_eq_bind, Option.bind_some, Option.pure_def]
          · rw [List.length_set]; exact h.len
          · intro c hcc
            dsimp only
            by_cases hct : c = t
            · subst hct
              rw [List.getElem?_set_self (by rw [h.len]; exact ht)]
              obtain ⟨p, q⟩ := hC c nd hin hcc
              rw [hl p, q]
            · rw [List.getElem?_set_ne (fun e => hct e.symm)]
              exact h.good c hcc
          · intro q hq
            dsimp only
            rw [if_neg (by omega)]; exact h.idle q hq
          · intro q nd' hq
            by_cases hqt : q = t
            · subst hqt
              have : nd' = nd := by have := hq.1; rw [hn, Option.some.injEq] at this; exact this.symm
              subst this
              right
              refine ⟨by simp, fun hall => ?_⟩
              dsimp only
              rw [List.getElem?_set_self (by rw [h.len]; exact ht), hl hall]
            · dsimp only
              rw [if_neg hqt, if_neg hqt, List.getElem?_set_ne (fun e => hqt e.symm)]
              exact h.item q nd' hq
          · intro q nd' hq hq'
            dsimp only
            split
            · rfl
            · exact h.leaf q nd' hq hq'
          · intro q
            dsimp only
            split
            · rename_i hq; subst hq; rw [hr]; rfl
            · rfl
      · exact stay hr
  · exact stay (h.idle t (by omega))

theorem FieldInv.exec {s : SSt F} {level : Nat → Nat} (T : TreeShape s level) {V : Nat → F} {C : Nat → Prop}
    (hC : ∀ t nd, Inner s t nd → C t → (∀ c ∈ nd.childs, C c) ∧ V t = max8 (nd.childs.map V)) :
    ∀ (sched : List Nat) (st : KState (List F) F), FieldInv s V C st →
    ∃ st', st.exec sched = some st' ∧ FieldInv s V C st' ∧ (∀ j, (st'.rem j).length = (st.rem j).length - sched.count j) := by
  intro sched
  induction sched with
  | nil => intro st h; exact ⟨st, rfl, h, fun k => by simp⟩
  | cons t r ih =>
    intro st h
    obtain ⟨s1, a1, a2, a3⟩ := FieldInv.step T hC st h t
    obtain ⟨s2, b1, b2, b3⟩ := ih s1 a2
    refine ⟨s2, ?_, b2, ?_⟩
    · simp only [KState.exec, a1, Option.bind_eq_bind, Option.bind_some]; exact b1
    · intro k
      rw [b3 k, a3 k, List.count_cons]
      by_cases hk : k = t
      · subst hk; simp; omega
      · have : ¬ t = k := fun h => hk h.symm
        simp [hk, this]

/-- One launch: what is correct stays correct, and nodes whose children are correct become correct. -/
theorem treeLaunch_ok {s : SSt F} {level : Nat → Nat} (T : TreeShape s level) {V : Nat → F} {C : Nat → Prop}
    (hC : ∀ t nd, Inner s t nd → C t → (∀ c ∈ nd.childs, C c) ∧ V t = max8 (nd.childs.map V)) (sched : List Nat) (m : List F)
    (hlen : m.length = s.nodes.length) (hg : ∀ c, C c → m[c]? = some (V c)) :
    ∃ m', kLaunch s.nodes.length (treeItem s) [] sched m = some m' ∧ m'.length = s.nodes.length ∧ (∀ c, C c → m'[c]? = some (V c)) ∧
      ∀ t nd, Inner s t nd → (∀ c ∈ nd.childs, C c) → m'[t]? = some (max8 (nd.childs.map V)) := by
  have hitem : ∀ t nd, Inner s t nd → treeItem s t = nd.childs.map readStep ++ [reduceStep t] := by
    intro t nd h
    unfold treeItem
    rw [h.1]
    dsimp only
    rw [if_pos h.2]
  have hinit : FieldInv s V C (⟨fun t => if t < s.nodes.length then treeItem s t else [], fun _ => [], m⟩ : KState (List F) F) := by
    refine ⟨hlen, hg, fun t ht => by dsimp only; rw [if_neg (by omega)], fun t nd h => ?_, fun t nd h h' => ?_⟩
    · left
      refine ⟨0, Nat.zero_le _, ?_, fun _ => by simp⟩
      dsimp only
      rw [if_pos (List.getElem?_eq_some_iff.1 h.1).1, hitem t nd h, List.drop_zero]
    · dsimp only
      rw [if_pos (List.getElem?_eq_some_iff.1 h).1]
      unfold treeItem
      rw [h]
      dsimp only
      rw [if_neg (by rw [h']; simp)]
  obtain ⟨st, h1, h2, h3⟩ := FieldInv.exec T hC (sched ++ drain (treeItem s) s.nodes.length) _ hinit
  refine ⟨st.mem, by unfold kLaunch; rw [h1]; rfl, h2.len, h2.good, fun t nd h hall => ?_⟩
  have ht := (List.getElem?_eq_some_iff.1 h.1).1
  have hz : (st.rem t).length = 0 := by
    have e := h3 t
    simp only [if_pos ht, List.count_append] at e
    have := drain_count (treeItem s) s.nodes.length t ht
    omega
  rcases h2.item t nd h with ⟨j, _, hr, _⟩ | ⟨_, hfin⟩
  · rw [hr] at hz; simp at hz
  · exact hfin hall

/-- The nodes correct after `p` launches. -/
def RightAfter (s : SSt F) (level : Nat → Nat) (p i : Nat) : Prop :=
  ∃ nd, s.nodes[i]? = some nd ∧ (nd.childs.head? = some u64max ∨ s.lev ≤ level i + p)

theorem treeLaunches_ok {s : SSt F} {level : Nat → Nat} (T : TreeShape s level) (rho : Nat → F) : ∀ (scheds : List (List Nat)) (p : Nat) (m : List F),
    m.length = s.nodes.length → (∀ c, RightAfter s level p c → m[c]? = some (treeV s rho c)) →
    ∃ m', treeLaunches s scheds m = some m' ∧ m'.length = s.nodes.length ∧
      ∀ c, RightAfter s level (p + scheds.length) c → m'[c]? = some (treeV s rho c) := by
  intro scheds
  induction scheds with
  | nil => intro p m h1 h2; exact ⟨m, rfl, h1, h2⟩
  | cons sc r ih =>
    intro p m h1 h2
    obtain ⟨m1, a1, a2, a3, a4⟩ := treeLaunch_ok T (V := treeV s rho) (C := RightAfter s level p) (fun t nd hin hC => by
      refine ⟨fun c hc => ?_, treeV_inner T rho t nd hin⟩
      obtain ⟨nd', e, hk⟩ := hC
      rw [hin.1, Option.some.injEq] at e
      subst e
      obtain ⟨b1, b2⟩ := (T.kids t nd hin.1 hin.2).2 c hc
      refine ⟨_, List.getElem?_eq_getElem b1, Or.inr ?_⟩
      rcases hk with hk | hk
      · exact absurd hk hin.2
      · omega) sc m h1 h2
    obtain ⟨m2, b1, b2, b3⟩ := ih (p + 1) m1 a2 (fun c hc => by
      obtain ⟨nd, e, hk⟩ := hc
      by_cases hl : nd.childs.head? = some u64max
      · exact a3 c ⟨nd, e, Or.inl hl⟩
      · have hin : Inner s c nd := ⟨e, hl⟩
        rw [treeV_inner T rho c nd hin]
        refine a4 c nd hin fun d hd => ?_
        obtain ⟨q1, q2⟩ := (T.kids c nd e hl).2 d hd
        refine ⟨_, List.getElem?_eq_getElem q1, Or.inr ?_⟩
        rcases hk with hk | hk
        · exact absurd hk hl
        · omega)
    refine ⟨m2, ?_, b2, fun c hc => b3 c ?_⟩
    · simp only [treeLaunches, a1, Option.bind_some]; exact b1
    · rw [List.length_cons] at hc
      rwa [show p + 1 + r.length = p + (r.length + 1) by omega]

/-- The field on the tree, for every schedule of every launch. -/
theorem treeField_ok {s : SSt F} {level : Nat → Nat} (T : TreeShape s level) (rho : Nat → F)
    (hlk : ∀ (i : Nat) nd l, s.nodes[i]? = some nd → nd.childs.head? = some u64max → s.links[i]? = some l → l ≠ u64max) (scheds : Nat → List Nat) :
    ∃ tf, treeField s rho scheds = some tf ∧ tf.length = s.nodes.length ∧ ∀ i < s.nodes.length, tf[i]? = some (treeV s rho i) := by
  obtain ⟨tf, h1, h2, h3⟩ := treeLaunches_ok T rho ((List.range s.lev).map scheds) 0 (s.links.map fun l => if l ≠ u64max then rho l else 0)
    (by rw [List.length_map]; exact T.links) (by
      rintro c ⟨nd, e, hk⟩
      have hc := (List.getElem?_eq_some_iff.1 e).1
      have hleaf : nd.childs.head? = some u64max := by
        rcases hk with hk | hk
        · exact hk
        · by_contra hn
          obtain ⟨h8, hc'⟩ := T.kids c nd e hn
          obtain ⟨a, b⟩ := hc' _ (List.getElem_mem (l := nd.childs) (n := 0) (by omega))
          have := T.lev _ a
          omega
      have hl : s.links[c]? = some (s.links[c]'(by rw [T.links]; exact hc)) := List.getElem?_eq_getElem _
      rw [List.getElem?_map, hl, Option.map_some, if_pos (hlk c nd _ e hleaf hl), treeV_leaf T rho c nd e (by simp [hleaf]) _ hl])
  refine ⟨tf, h1, h2, fun i hi => h3 i ⟨_, List.getElem?_eq_getElem hi, Or.inr ?_⟩⟩
  simp

theorem le_max8 (l : List F) (h : l.length = 8) (x : F) (hx : x ∈ l) : x ≤ max8 l := by
  match l, h with
  | [a, b, c, d, e, f, g, i], _ =>
    simp only [max8, le_max_iff]
    simp only [List.mem_cons, List.not_mem_nil, or_false] at hx
    rcases hx with rfl | rfl | rfl | rfl | rfl | rfl | rfl | rfl <;> simp

end
end
end Shamrock
