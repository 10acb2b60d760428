import Verif.Model.SelfGrav
import Verif.Proof.BVH
/-! The downward pass: any schedule of the launches gives each cell the sum of what its ancestors send. -/
namespace Shamrock.SelfGrav

open Shamrock

/-! ### Tree facts -/

def kidsOf : KTree → List KTree
  | .leaf _ => []
  | .node _ l r => [l, r]

theorem subtrees_kids : ∀ T : KTree, T.subtrees.Perm (T :: T.subtrees.flatMap kidsOf) := by
  intro T
  induction T with
  | leaf k => simp [KTree.subtrees, kidsOf]
  | node i l r ihl ihr =>
    simp only [KTree.subtrees, List.flatMap_cons, List.flatMap_append, kidsOf]
    refine List.Perm.cons _ ?_
    refine (ihl.append ihr).trans ?_
    simp only [List.cons_append, List.nil_append]
    refine List.Perm.cons _ ?_
    exact List.perm_middle

section
variable {nodes : List KNode} {T : KTree}

theorem idx_inj (W : WholeTree nodes T) {S R : KTree} (hS : S ∈ T.subtrees) (hR : R ∈ T.subtrees)
    (h : cellIdx nodes.length S.ref = cellIdx nodes.length R.ref) : S = R :=
  List.inj_on_of_nodup_map (whole_cells_nodup W) hS hR h

theorem kid_mem {i : Nat} {l r : KTree} (h : KTree.node i l r ∈ T.subtrees) : l ∈ T.subtrees ∧ r ∈ T.subtrees :=
  ⟨subtrees_trans T _ _ h (by simp [KTree.subtrees, self_mem_subtrees]), subtrees_trans T _ _ h (by simp [KTree.subtrees, self_mem_subtrees])⟩

theorem kids_nodup (W : WholeTree nodes T) : ((T :: T.subtrees.flatMap kidsOf).map fun S => cellIdx nodes.length S.ref).Nodup :=
  ((subtrees_kids T).map fun S : KTree => cellIdx nodes.length S.ref).nodup_iff.1
    (show (T.subtrees.map fun S : KTree => cellIdx nodes.length S.ref).Nodup from whole_cells_nodup W)

theorem kid_parent (W : WholeTree nodes T) {S R : KTree} (hS : S ∈ T.subtrees) (hR : R ∈ T.subtrees) {c d : KTree} (hc : c ∈ kidsOf S)
    (hd : d ∈ kidsOf R) (h : cellIdx nodes.length c.ref = cellIdx nodes.length d.ref) : S = R := by
  by_contra hne
  have hn := kids_nodup W
  rw [List.map_cons, List.nodup_cons] at hn
  have hn := hn.2
  rw [List.map_flatMap, List.nodup_flatMap] at hn
  haveI : Std.Symm (Function.onFun List.Disjoint fun a => List.map (fun S : KTree => cellIdx nodes.length S.ref) (kidsOf a)) :=
    ⟨fun a b h => List.Disjoint.symm h⟩
  have := hn.2.forall hS hR hne
  exact this (List.mem_map.2 ⟨c, hc, rfl⟩) (List.mem_map.2 ⟨d, hd, h.symm⟩)

theorem kid_not_root (W : WholeTree nodes T) {S : KTree} (hS : S ∈ T.subtrees) {c : KTree} (hc : c ∈ kidsOf S) :
    cellIdx nodes.length c.ref ≠ 0 := by
  have hn := kids_nodup W
  rw [List.map_cons, List.nodup_cons, whole_root W] at hn
  intro h
  exact hn.1 (List.mem_map.2 ⟨c, List.mem_flatMap.2 ⟨S, hS, hc⟩, h⟩)

theorem kids_ne (W : WholeTree nodes T) {i : Nat} {l r : KTree} (hS : KTree.node i l r ∈ T.subtrees) :
    cellIdx nodes.length l.ref ≠ cellIdx nodes.length r.ref := by
  have hn := kids_nodup W
  rw [List.map_cons, List.nodup_cons] at hn
  have hn := hn.2
  rw [List.map_flatMap, List.nodup_flatMap] at hn
  have := hn.1 _ hS
  simpa [kidsOf] using this

theorem proper_parent : ∀ (A S : KTree), S ∈ A.subtrees → S ≠ A → ∃ N ∈ A.subtrees, S ∈ kidsOf N := by
  intro A S hS hne
  have := (subtrees_kids A).mem_iff.1 hS
  rcases List.mem_cons.1 this with h | h
  · exact absurd h hne
  · obtain ⟨N, h1, h2⟩ := List.mem_flatMap.1 h
    exact ⟨N, h1, h2⟩

end

/-! ### What a cell must get -/

section
variable {α : Type}

/-- `v` is what cell `S` gets from its own value and those of its ancestors; `p` lists the cell and its ancestors. -/
inductive Down (add : α → α → α) (sh : Nat → Nat → α → α) (off : Nat) (own : Nat → α) (T : KTree) : KTree → List KTree → α → Prop
  | root : Down add sh off own T T [T] (own (cellIdx off T.ref))
  | left {i : Nat} {l r : KTree} {p : List KTree} {v : α} : Down add sh off own T (.node i l r) p v →
      Down add sh off own T l (l :: p) (add (own (cellIdx off l.ref)) (sh i (cellIdx off l.ref) v))
  | right {i : Nat} {l r : KTree} {p : List KTree} {v : α} : Down add sh off own T (.node i l r) p v →
      Down add sh off own T r (r :: p) (add (own (cellIdx off r.ref)) (sh i (cellIdx off r.ref) v))

variable {add : α → α → α} {sh : Nat → Nat → α → α} {nodes : List KNode} {own : Nat → α} {T : KTree}

theorem down_mem {off : Nat} {S : KTree} {p : List KTree} {v : α} (h : Down add sh off own T S p v) : S ∈ T.subtrees ∧ S ∈ p := by
  induction h with
  | root => exact ⟨self_mem_subtrees T, by simp⟩
  | left _ ih => exact ⟨(kid_mem ih.1).1, by simp⟩
  | right _ ih => exact ⟨(kid_mem ih.1).2, by simp⟩

theorem down_exists {off : Nat} : ∀ (R : KTree) (p : List KTree) (v : α), Down add sh off own T R p v → ∀ S ∈ R.subtrees,
    ∃ p' v', Down add sh off own T S p' v' ∧ p'.length + S.depth ≤ p.length + R.depth := by
  intro R
  induction R with
  | leaf k =>
    intro p v h S hS
    simp only [KTree.subtrees, List.mem_singleton] at hS
    subst hS
    exact ⟨p, v, h, Nat.le_refl _⟩
  | node i l r ihl ihr =>
    intro p v h S hS
    simp only [KTree.subtrees, List.mem_cons, List.mem_append] at hS
    rcases hS with rfl | hS | hS
    · exact ⟨p, v, h, Nat.le_refl _⟩
    · obtain ⟨p', v', a, b⟩ := ihl _ _ h.left S hS
      refine ⟨p', v', a, ?_⟩
      simp only [List.length_cons, KTree.depth] at *
      omega
    · obtain ⟨p', v', a, b⟩ := ihr _ _ h.right S hS
      refine ⟨p', v', a, ?_⟩
      simp only [List.length_cons, KTree.depth] at *
      omega

theorem down_path (W : WholeTree nodes T) {S : KTree} {p : List KTree} {v : α} (h : Down add sh nodes.length own T S p v) :
    p.Nodup ∧ ∀ A, A ∈ p ↔ A ∈ T.subtrees ∧ S ∈ A.subtrees := by
  have key : ∀ {N c : KTree} {p : List KTree}, N ∈ T.subtrees → c ∈ kidsOf N → (p.Nodup ∧ ∀ A, A ∈ p ↔ A ∈ T.subtrees ∧ N ∈ A.subtrees) →
      (c :: p).Nodup ∧ ∀ A, A ∈ c :: p ↔ A ∈ T.subtrees ∧ c ∈ A.subtrees := by
    intro N c p hN hc ih
    have hcs : c ∈ N.subtrees := by
      cases N with
      | leaf k => simp [kidsOf] at hc
      | node i l r =>
        simp only [kidsOf, List.mem_cons, List.not_mem_nil, or_false] at hc
        rcases hc with rfl | rfl <;> simp [KTree.subtrees, self_mem_subtrees]
    have hdep : c.depth < N.depth := by
      cases N with
      | leaf k => simp [kidsOf] at hc
      | node i l r =>
        simp only [kidsOf, List.mem_cons, List.not_mem_nil, or_false] at hc
        rcases hc with rfl | rfl <;> simp only [KTree.depth] <;> omega
    have hcT := subtrees_trans T _ _ hN hcs
    refine ⟨List.nodup_cons.2 ⟨?_, ih.1⟩, ?_⟩
    · intro hm
      have := subtrees_depth _ _ ((ih.2 c).1 hm).2
      omega
    · intro A
      rw [List.mem_cons, ih.2 A]
      constructor
      · rintro (rfl | ⟨a, b⟩)
        · exact ⟨hcT, self_mem_subtrees _⟩
        · exact ⟨a, subtrees_trans _ _ _ b hcs⟩
      · rintro ⟨a, b⟩
        by_cases hne : c = A
        · exact Or.inl hne.symm
        · right
          obtain ⟨N', h1, h2⟩ := proper_parent A c b hne
          have := kid_parent W (subtrees_trans _ _ _ a h1) hN h2 hc rfl
          subst this
          exact ⟨a, h1⟩
  induction h with
  | root =>
    refine ⟨by simp, ?_⟩
    intro A
    rw [List.mem_singleton]
    constructor
    · rintro rfl; exact ⟨self_mem_subtrees _, self_mem_subtrees _⟩
    · rintro ⟨a, b⟩
      by_contra hne
      obtain ⟨N, h1, h2⟩ := proper_parent A T b (fun h => hne h.symm)
      have := kid_not_root W (subtrees_trans _ _ _ a h1) h2
      exact this (whole_root W)
  | left hd ih => exact key (down_mem hd).1 (by simp [kidsOf]) ih
  | right hd ih => exact key (down_mem hd).1 (by simp [kidsOf]) ih

/-! ### One work item -/

/-- Where a work item is: `pv` the right value of the cell, `ol`, `orr` the own values of its children, `fl`, `fr` their final ones, `F0`: the
cell was complete at the start of the launch; `k` steps done; `ct`, `cl`, `cr` the entries of the cell and its children. -/
def Stage (pv : α → Prop) (ol orr : α) (fl fr : α → α) (F0 : Prop) (k : Nat) (loc : LLoc α) (ct cl cr : Option (Bool × α)) : Prop :=
  (loc.ok = false ∧ ((∃ v, pv v ∧ cl = some (true, fl v) ∧ cr = some (true, fr v)) ∨ (cl = some (false, ol) ∧ cr = some (false, orr) ∧ ¬F0))) ∨
  (loc.ok = true ∧
    ((k = 0 ∧ ((∃ v, pv v ∧ cl = some (true, fl v) ∧ cr = some (true, fr v)) ∨ (cl = some (false, ol) ∧ cr = some (false, orr)))) ∨
     (k = 1 ∧ (∃ v, pv v ∧ ct = some (true, v)) ∧
        ((∃ v, pv v ∧ cl = some (true, fl v) ∧ cr = some (true, fr v)) ∨ (cl = some (false, ol) ∧ cr = some (false, orr)))) ∨
     ((k = 2 ∨ k = 3) ∧ (∃ v, pv v ∧ ct = some (true, v)) ∧ cl = some (false, ol) ∧ cr = some (false, orr)) ∨
     (k = 4 ∧ (∃ v, pv v ∧ loc.my = some v) ∧ cl = some (false, ol) ∧ cr = some (false, orr)) ∨
     (k = 5 ∧ (∃ v, pv v ∧ loc.my = some v) ∧ loc.left = some ol ∧ cl = some (false, ol) ∧ cr = some (false, orr)) ∨
     (k = 6 ∧ (∃ v, pv v ∧ loc.my = some v) ∧ loc.left = some ol ∧ loc.right = some orr ∧ cl = some (false, ol) ∧ cr = some (false, orr)) ∨
     (k = 7 ∧ (∃ v, pv v ∧ loc.my = some v ∧ cl = some (false, fl v)) ∧ loc.right = some orr ∧ cr = some (false, orr)) ∨
     (k = 8 ∧ ∃ v, pv v ∧ cl = some (false, fl v) ∧ cr = some (false, fr v)) ∨
     (k = 9 ∧ ∃ v, pv v ∧ cl = some (true, fl v) ∧ cr = some (false, fr v)) ∨
     (k = 10 ∧ ∃ v, pv v ∧ cl = some (true, fl v) ∧ cr = some (true, fr v))))

theorem Stage.mono {pv : α → Prop} {ol orr : α} {fl fr : α → α} {F0 : Prop} {k : Nat} {loc : LLoc α} {ct ct' cl cr : Option (Bool × α)}
    (h : Stage pv ol orr fl fr F0 k loc ct cl cr) (hm : ∀ v, ct = some (true, v) → ct' = some (true, v)) :
    Stage pv ol orr fl fr F0 k loc ct' cl cr := by
  unfold Stage at *
  rcases h with h | ⟨h0, h⟩
  · exact Or.inl h
  · right
    refine ⟨h0, ?_⟩
    rcases h with h | ⟨h1, ⟨v, a, b⟩, h2⟩ | ⟨h1, ⟨v, a, b⟩, h2⟩ | h
    · exact Or.inl h
    · exact Or.inr (Or.inl ⟨h1, ⟨v, a, hm v b⟩, h2⟩)
    · exact Or.inr (Or.inr (Or.inl ⟨h1, ⟨v, a, hm v b⟩, h2⟩))
    · exact Or.inr (Or.inr (Or.inr h))

theorem Stage.leftFlag {pv : α → Prop} {ol orr : α} {fl fr : α → α} {F0 : Prop} {k : Nat} {loc : LLoc α} {ct cl cr : Option (Bool × α)}
    (h : Stage pv ol orr fl fr F0 k loc ct cl cr) {x : α} (hc : cl = some (true, x)) : ∃ v, pv v ∧ x = fl v := by
  unfold Stage at h
  rcases h with ⟨_, h⟩ | ⟨_, h⟩
  · rcases h with ⟨v, a, b, _⟩ | ⟨b, _⟩
    · rw [hc] at b; simp at b; exact ⟨v, a, b⟩
    · rw [hc] at b; simp at b
  · rcases h with ⟨_, h⟩ | ⟨_, _, h⟩ | ⟨_, _, b, _⟩ | ⟨_, _, b, _⟩ | ⟨_, _, _, b, _⟩ | ⟨_, _, _, _, b, _⟩ | ⟨_, ⟨v, _, _, b⟩, _⟩ | ⟨_, v, _, b, _⟩ |
      ⟨_, v, a, b, _⟩ | ⟨_, v, a, b, _⟩
    · rcases h with ⟨v, a, b, _⟩ | ⟨b, _⟩
      · rw [hc] at b; simp at b; exact ⟨v, a, b⟩
      · rw [hc] at b; simp at b
    · rcases h with ⟨v, a, b, _⟩ | ⟨b, _⟩
      · rw [hc] at b; simp at b; exact ⟨v, a, b⟩
      · rw [hc] at b; simp at b
    all_goals first
      | (rw [hc] at b; simp at b; done)
      | (rw [hc] at b; simp at b; exact ⟨v, a, b⟩)

theorem Stage.rightFlag {pv : α → Prop} {ol orr : α} {fl fr : α → α} {F0 : Prop} {k : Nat} {loc : LLoc α} {ct cl cr : Option (Bool × α)}
    (h : Stage pv ol orr fl fr F0 k loc ct cl cr) {x : α} (hc : cr = some (true, x)) : ∃ v, pv v ∧ x = fr v := by
  unfold Stage at h
  rcases h with ⟨_, h⟩ | ⟨_, h⟩
  · rcases h with ⟨v, a, _, b⟩ | ⟨_, b, _⟩
    · rw [hc] at b; simp at b; exact ⟨v, a, b⟩
    · rw [hc] at b; simp at b
  · rcases h with ⟨_, h⟩ | ⟨_, _, h⟩ | ⟨_, _, _, b⟩ | ⟨_, _, _, b⟩ | ⟨_, _, _, _, b⟩ | ⟨_, _, _, _, _, b⟩ | ⟨_, _, _, b⟩ | ⟨_, v, _, _, b⟩ |
      ⟨_, v, a, _, b⟩ | ⟨_, v, a, _, b⟩
    · rcases h with ⟨v, a, _, b⟩ | ⟨_, b⟩
      · rw [hc] at b; simp at b; exact ⟨v, a, b⟩
      · rw [hc] at b; simp at b
    · rcases h with ⟨v, a, _, b⟩ | ⟨_, b⟩
      · rw [hc] at b; simp at b; exact ⟨v, a, b⟩
      · rw [hc] at b; simp at b
    all_goals first
      | (rw [hc] at b; simp at b; done)
      | (rw [hc] at b; simp at b; exact ⟨v, a, b⟩)

/-- One step of a work item, seen from its three cells. -/
theorem stage_step (pv : α → Prop) (ol orr : α) (shl shr : α → α) (F0 : Prop) (gid tl tr : Nat) (hne : tl ≠ tr) (k : Nat) (hk : k < 10)
    (loc : LLoc α) (m : List (Bool × α)) (ht : gid < m.length) (hF : F0 → ∃ v, m[gid]? = some (true, v))
    (hct : ∀ v, m[gid]? = some (true, v) → pv v)
    (h : Stage pv ol orr (fun v => add ol (shl v)) (fun v => add orr (shr v)) F0 k loc m[gid]? m[tl]? m[tr]?) :
    ∃ s loc' m', (downSteps add shl shr gid tl tr)[k]? = some s ∧ s loc m = some (loc', m') ∧
      Stage pv ol orr (fun v => add ol (shl v)) (fun v => add orr (shr v)) F0 (k + 1) loc' m'[gid]? m'[tl]? m'[tr]? ∧
      (m' = m ∨ ∃ c x y, (c = tl ∨ c = tr) ∧ m[c]? = some (false, y) ∧ m' = m.set c x) := by
  have hs : ∃ s, (downSteps add shl shr gid tl tr)[k]? = some s := ⟨_, List.getElem?_eq_getElem (by simpa [downSteps] using hk)⟩
  obtain ⟨s, hs⟩ := hs
  refine ⟨s, ?_⟩
  suffices hh : ∃ loc' m', s loc m = some (loc', m') ∧
      Stage pv ol orr (fun v => add ol (shl v)) (fun v => add orr (shr v)) F0 (k + 1) loc' m'[gid]? m'[tl]? m'[tr]? ∧
      (m' = m ∨ ∃ c x y, (c = tl ∨ c = tr) ∧ m[c]? = some (false, y) ∧ m' = m.set c x) by
    obtain ⟨a, b, c, d, e⟩ := hh
    exact ⟨a, b, hs, c, d, e⟩
  rcases h with ⟨hok, h⟩ | ⟨hok, h⟩
  · refine ⟨loc, m, ?_, Or.inl ⟨hok, h⟩, Or.inl rfl⟩
    have : ∀ s' ∈ downSteps add shl shr gid tl tr, s' loc m = some (loc, m) := by
      intro s' hs'
      simp only [downSteps, List.mem_cons, List.not_mem_nil, or_false] at hs'
      rcases hs' with rfl | rfl | rfl | rfl | rfl | rfl | rfl | rfl | rfl | rfl <;> simp [testStep, loadStep, storeStep, flagStep, hok]
    exact this s (List.mem_of_getElem? hs)
  · rcases h with ⟨rfl, h⟩ | ⟨rfl, hv, h⟩ | ⟨hk', ⟨v, hv, hc⟩, c1, c2⟩ | ⟨rfl, ⟨v, hv, my⟩, c1, c2⟩ | ⟨rfl, ⟨v, hv, my⟩, lf, c1, c2⟩ |
      ⟨rfl, ⟨v, hv, my⟩, lf, rg, c1, c2⟩ | ⟨rfl, ⟨v, hv, my, c1⟩, rg, c2⟩ | ⟨rfl, v, hv, c1, c2⟩ | ⟨rfl, v, hv, c1, c2⟩ | ⟨rfl, _⟩
    · -- is the cell complete?
      obtain ⟨⟨b, v⟩, hb⟩ : ∃ c, m[gid]? = some c := ⟨_, List.getElem?_eq_getElem ht⟩
      simp only [downSteps, List.getElem?_cons_zero, Option.some.injEq] at hs
      subst hs
      refine ⟨{ loc with ok := b == true }, m, ?_, ?_, Or.inl rfl⟩
      · simp [testStep, hok, hb]
      · cases b with
        | true => exact Or.inr ⟨rfl, Or.inr (Or.inl ⟨rfl, ⟨v, hct v hb, hb⟩, h⟩)⟩
        | false =>
          left
          refine ⟨rfl, ?_⟩
          rcases h with h | ⟨h1, h2⟩
          · exact Or.inl h
          · right
            refine ⟨h1, h2, ?_⟩
            intro hf
            obtain ⟨v', hv'⟩ := hF hf
            rw [hb] at hv'; simp at hv'
    · -- left child
      simp only [downSteps, List.getElem?_cons_succ, List.getElem?_cons_zero, Option.some.injEq] at hs
      subst hs
      rcases h with ⟨v, h1, h2, h3⟩ | ⟨h2, h3⟩
      · refine ⟨{ loc with ok := false }, m, by simp [testStep, hok, h2], Or.inl ⟨rfl, Or.inl ⟨v, h1, h2, h3⟩⟩, Or.inl rfl⟩
      · refine ⟨{ loc with ok := true }, m, by simp [testStep, hok, h2], Or.inr ⟨rfl, ?_⟩, Or.inl rfl⟩
        exact Or.inr (Or.inr (Or.inl ⟨Or.inl rfl, hv, h2, h3⟩))
    · rcases hk' with rfl | rfl
      · -- right child
        simp only [downSteps, List.getElem?_cons_succ, List.getElem?_cons_zero, Option.some.injEq] at hs
        subst hs
        refine ⟨{ loc with ok := true }, m, by simp [testStep, hok, c2], Or.inr ⟨rfl, ?_⟩, Or.inl rfl⟩
        exact Or.inr (Or.inr (Or.inl ⟨Or.inr rfl, ⟨v, hv, hc⟩, c1, c2⟩))
      · -- load own
        simp only [downSteps, List.getElem?_cons_succ, List.getElem?_cons_zero, Option.some.injEq] at hs
        subst hs
        refine ⟨{ loc with my := some v }, m, by simp [loadStep, hok, hc], Or.inr ⟨hok, ?_⟩, Or.inl rfl⟩
        exact Or.inr (Or.inr (Or.inr (Or.inl ⟨rfl, ⟨v, hv, rfl⟩, c1, c2⟩)))
    · simp only [downSteps, List.getElem?_cons_succ, List.getElem?_cons_zero, Option.some.injEq] at hs
      subst hs
      refine ⟨{ loc with left := some ol }, m, by simp [loadStep, hok, c1], Or.inr ⟨hok, ?_⟩, Or.inl rfl⟩
      exact Or.inr (Or.inr (Or.inr (Or.inr (Or.inl ⟨rfl, ⟨v, hv, my⟩, rfl, c1, c2⟩))))
    · simp only [downSteps, List.getElem?_cons_succ, List.getElem?_cons_zero, Option.some.injEq] at hs
      subst hs
      refine ⟨{ loc with right := some orr }, m, by simp [loadStep, hok, c2], Or.inr ⟨hok, ?_⟩, Or.inl rfl⟩
      exact Or.inr (Or.inr (Or.inr (Or.inr (Or.inr (Or.inl ⟨rfl, ⟨v, hv, my⟩, lf, rfl, c1, c2⟩)))))
    · simp only [downSteps, List.getElem?_cons_succ, List.getElem?_cons_zero, Option.some.injEq] at hs
      subst hs
      refine ⟨loc, m.set tl (false, add ol (shl v)), by simp [storeStep, hok, my, lf, c1], Or.inr ⟨hok, ?_⟩,
        Or.inr ⟨tl, _, ol, Or.inl rfl, c1, rfl⟩⟩
      have hl : tl < m.length := (List.getElem?_eq_some_iff.1 c1).1
      refine Or.inr (Or.inr (Or.inr (Or.inr (Or.inr (Or.inr (Or.inl ⟨rfl, ⟨v, hv, my, ?_⟩, rg, ?_⟩))))))
      · rw [List.getElem?_set_self hl]
      · rw [List.getElem?_set_ne hne]; exact c2
    · simp only [downSteps, List.getElem?_cons_succ, List.getElem?_cons_zero, Option.some.injEq] at hs
      subst hs
      refine ⟨loc, m.set tr (false, add orr (shr v)), by simp [storeStep, hok, my, rg, c2], Or.inr ⟨hok, ?_⟩,
        Or.inr ⟨tr, _, orr, Or.inr rfl, c2, rfl⟩⟩
      have hl : tr < m.length := (List.getElem?_eq_some_iff.1 c2).1
      refine Or.inr (Or.inr (Or.inr (Or.inr (Or.inr (Or.inr (Or.inr (Or.inl ⟨rfl, v, hv, ?_, ?_⟩)))))))
      · rw [List.getElem?_set_ne (Ne.symm hne)]; exact c1
      · rw [List.getElem?_set_self hl]
    · simp only [downSteps, List.getElem?_cons_succ, List.getElem?_cons_zero, Option.some.injEq] at hs
      subst hs
      refine ⟨loc, m.set tl (true, add ol (shl v)), by simp [flagStep, hok, c1], Or.inr ⟨hok, ?_⟩,
        Or.inr ⟨tl, _, _, Or.inl rfl, c1, rfl⟩⟩
      have hl : tl < m.length := (List.getElem?_eq_some_iff.1 c1).1
      refine Or.inr (Or.inr (Or.inr (Or.inr (Or.inr (Or.inr (Or.inr (Or.inr (Or.inl ⟨rfl, v, hv, ?_, ?_⟩))))))))
      · rw [List.getElem?_set_self hl]
      · rw [List.getElem?_set_ne hne]; exact c2
    · simp only [downSteps, List.getElem?_cons_succ, List.getElem?_cons_zero, Option.some.injEq] at hs
      subst hs
      refine ⟨loc, m.set tr (true, add orr (shr v)), by simp [flagStep, hok, c2], Or.inr ⟨hok, ?_⟩,
        Or.inr ⟨tr, _, _, Or.inr rfl, c2, rfl⟩⟩
      have hl : tr < m.length := (List.getElem?_eq_some_iff.1 c2).1
      refine Or.inr (Or.inr (Or.inr (Or.inr (Or.inr (Or.inr (Or.inr (Or.inr (Or.inr ⟨rfl, v, hv, ?_, ?_⟩))))))))
      · rw [List.getElem?_set_ne (Ne.symm hne)]; exact c1
      · rw [List.getElem?_set_self hl]
    · omega

end

end Shamrock.SelfGrav
