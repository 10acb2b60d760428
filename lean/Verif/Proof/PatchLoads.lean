import Verif.Proof.PatchTree
/-! The load reduction on the patch tree. -/
namespace Shamrock

theorem map_id_opt {α : Type} (f : α → α) (o : Option α) (h : ∀ a, o = some a → f a = a) : o.map f = o := by
  cases o with
  | none => rfl
  | some a => rw [Option.map_some, h a rfl]

theorem leafPass (loads : Nat → Option Nat) : ∀ (ls : List Nat) (t : PTree),
    (∀ x ∈ ls, ∃ n l, t.tree x = some n ∧ n.linked ≠ u64max ∧ loads n.linked = some l) →
    ∃ t', PTree.updateAll loads ls t = .ok t' ∧ t'.leafKey = t.leafKey ∧ t'.polk = t.polk ∧ t'.roots = t.roots ∧ t'.nextId = t.nextId ∧
      ∀ x, t'.tree x = (t.tree x).map (fun n => if x ∈ ls then { n with load := u64add 0 ((loads n.linked).getD 0) } else n) := by
  intro ls
  induction ls with
  | nil =>
    intro t _
    refine ⟨t, rfl, rfl, rfl, rfl, rfl, fun x => ?_⟩
    rw [map_id_opt _ _ (fun a _ => by rw [if_neg (by simp)])]
  | cons i r ih =>
    intro t h
    obtain ⟨n, l, h1, h2, h3⟩ := h i List.mem_cons_self
    have hup : t.updateNode loads i = .ok ⟨upd t.tree i (some { n with load := u64add 0 l }), t.leafKey, t.polk, t.roots, t.nextId⟩ := by
      unfold PTree.updateNode
      rw [h1]; simp only
      rw [if_pos h2, h3]
    have e : ∀ y, upd t.tree i (some { n with load := u64add 0 l }) y = if y = i then some { n with load := u64add 0 l } else t.tree y := fun _ => rfl
    obtain ⟨t', g0, g1, g2, g3, g4, g5⟩ := ih ⟨upd t.tree i (some { n with load := u64add 0 l }), t.leafKey, t.polk, t.roots, t.nextId⟩ (by
      intro x hx
      obtain ⟨m, l', m1, m2, m3⟩ := h x (List.mem_cons_of_mem _ hx)
      simp only [e]
      by_cases hxi : x = i
      · subst hxi
        rw [if_pos rfl]
        exact ⟨_, l, rfl, h2, h3⟩
      · rw [if_neg hxi]; exact ⟨m, l', m1, m2, m3⟩)
    refine ⟨t', ?_, g1, g2, g3, g4, fun x => ?_⟩
    · show (t.updateNode loads i).bind _ = _
      rw [hup]; exact g0
    · rw [g5 x]
      simp only [e]
      by_cases hxi : x = i
      · subst hxi
        rw [if_pos rfl, h1, Option.map_some, Option.map_some, if_pos List.mem_cons_self, h3]
        by_cases hr : x ∈ r
        · rw [if_pos hr]
        · rw [if_neg hr]; rfl
      · rw [if_neg hxi]
        cases ht : t.tree x with
        | none => rfl
        | some m =>
          rw [Option.map_some, Option.map_some]
          by_cases hr : x ∈ r
          · rw [if_pos hr, if_pos (List.mem_cons_of_mem _ hr)]
          · rw [if_neg hr, if_neg (by simp [hxi, hr])]

/-- The load of a node, `0` if it does not exist. -/
def PTree.loadOf (t : PTree) (c : Nat) : Nat := match t.tree c with | some n => n.load | none => 0

/-- What the sum over the children should be: `u64_max` if one is `u64_max`, else the sum. -/
def sumLoads (ls : List Nat) : Nat := if u64max ∈ ls then u64max else ls.sum % 2 ^ 64

theorem childLoads_spec (t : PTree) (cs : List Nat) (h : ∀ c ∈ cs, ∃ k, t.tree c = some k) : ∀ (s : Nat) (e : Bool), s < 2 ^ 64 →
    t.childLoads cs s e = .ok ((s + (cs.map t.loadOf).sum) % 2 ^ 64, e || decide (u64max ∈ cs.map t.loadOf)) := by
  induction cs with
  | nil =>
    intro s e hs
    rw [List.map_nil, List.sum_nil, Nat.add_zero, Nat.mod_eq_of_lt hs]
    simp [PTree.childLoads]
  | cons c r ih =>
    intro s e hs
    obtain ⟨k, hk⟩ := h c List.mem_cons_self
    have hl : t.loadOf c = k.load := by unfold PTree.loadOf; rw [hk]
    unfold PTree.childLoads
    rw [hk]; simp only
    rw [ih (fun c hc => h c (List.mem_cons_of_mem _ hc)) _ _ (by unfold u64add; exact Nat.mod_lt _ (by decide))]
    have e1 : (u64add s k.load + (r.map t.loadOf).sum) % 2 ^ 64 = (s + (((c :: r).map t.loadOf)).sum) % 2 ^ 64 := by
      rw [List.map_cons, List.sum_cons, hl]; unfold u64add; omega
    have e2 : ((e || k.load == u64max) || decide (u64max ∈ r.map t.loadOf)) = (e || decide (u64max ∈ (c :: r).map t.loadOf)) := by
      rw [List.map_cons, hl, Bool.or_assoc]
      by_cases hh : k.load = u64max
      · simp [hh]
      · rw [show (k.load == u64max) = false by simp [hh]]
        have hh' : ¬ u64max = k.load := fun h => hh h.symm
        simp [List.mem_cons, hh']
    rw [e1, e2]

theorem polkPass (loads : Nat → Option Nat) : ∀ (ps : List Nat) (t : PTree),
    (∀ x ∈ ps, ∃ n, t.tree x = some n ∧ n.linked = u64max ∧ n.childs.head? ≠ some u64max ∧ ∀ c ∈ n.childs, c ∉ ps ∧ ∃ k, t.tree c = some k) →
    ∃ t', PTree.updateAll loads ps t = .ok t' ∧ t'.leafKey = t.leafKey ∧ t'.polk = t.polk ∧ t'.roots = t.roots ∧ t'.nextId = t.nextId ∧
      ∀ x, t'.tree x = (t.tree x).map (fun n => if x ∈ ps then { n with load := sumLoads (n.childs.map t.loadOf) } else n) := by
  intro ps
  induction ps with
  | nil =>
    intro t _
    refine ⟨t, rfl, rfl, rfl, rfl, rfl, fun x => ?_⟩
    rw [map_id_opt _ _ (fun a _ => by rw [if_neg (by simp)])]
  | cons i r ih =>
    intro t h
    obtain ⟨n, h1, h2, h3, h4⟩ := h i List.mem_cons_self
    have hcl := childLoads_spec t n.childs (fun c hc => (h4 c hc).2) 0 false (by decide)
    let v := sumLoads (n.childs.map t.loadOf)
    have hup : t.updateNode loads i = .ok ⟨upd t.tree i (some { n with load := v }), t.leafKey, t.polk, t.roots, t.nextId⟩ := by
      unfold PTree.updateNode
      rw [h1]; simp only
      rw [if_neg (by simp [h2]), if_pos h3, hcl]
      show Res.ok _ = Res.ok _
      simp only [Bool.false_or, Nat.zero_add, decide_eq_true_eq]
      rfl
    have e : ∀ y, upd t.tree i (some { n with load := v }) y = if y = i then some { n with load := v } else t.tree y := fun _ => rfl
    let t1 : PTree := ⟨upd t.tree i (some { n with load := v }), t.leafKey, t.polk, t.roots, t.nextId⟩
    have hlo : ∀ c, c ≠ i → t1.loadOf c = t.loadOf c := by
      intro c hc
      unfold PTree.loadOf
      show (match upd t.tree i _ c with | some n => n.load | none => 0) = _
      rw [e, if_neg hc]
    obtain ⟨t', g0, g1, g2, g3, g4, g5⟩ := ih t1 (by
      intro x hx
      obtain ⟨m, m1, m2, m3, m4⟩ := h x (List.mem_cons_of_mem _ hx)
      have m5 : ∀ c ∈ m.childs, c ∉ r ∧ ∃ k, t1.tree c = some k := by
        intro c hc
        obtain ⟨q1, q2⟩ := m4 c hc
        refine ⟨fun hh => q1 (List.mem_cons_of_mem _ hh), ?_⟩
        show ∃ k, upd _ _ _ c = _
        rw [e, if_neg (fun hh => q1 (by rw [hh]; exact List.mem_cons_self))]; exact q2
      show ∃ n, upd _ _ _ x = _ ∧ _
      rw [e]
      by_cases hxi : x = i
      · subst hxi
        rw [h1, Option.some.injEq] at m1
        subst m1
        rw [if_pos rfl]
        exact ⟨_, rfl, m2, m3, m5⟩
      · rw [if_neg hxi]; exact ⟨m, m1, m2, m3, m5⟩)
    refine ⟨t', ?_, g1, g2, g3, g4, fun x => ?_⟩
    · show (t.updateNode loads i).bind _ = _
      rw [hup]; exact g0
    · rw [g5 x]
      show (upd t.tree i _ x).map _ = _
      rw [e]
      by_cases hxi : x = i
      · subst hxi
        rw [if_pos rfl, h1, Option.map_some, Option.map_some, if_pos List.mem_cons_self]
        by_cases hr : x ∈ r
        · rw [if_pos hr]
          show some { n with load := sumLoads (n.childs.map t1.loadOf) } = _
          rw [List.map_congr_left (fun c hc => hlo c (fun hh => (h4 c hc).1 (by rw [hh]; exact List.mem_cons_self)))]
        · rw [if_neg hr]
      · rw [if_neg hxi]
        cases ht : t.tree x with
        | none => rfl
        | some m =>
          rw [Option.map_some, Option.map_some]
          by_cases hr : x ∈ r
          · rw [if_pos hr, if_pos (List.mem_cons_of_mem _ hr)]
            obtain ⟨m', m1, _, _, m4⟩ := h x (List.mem_cons_of_mem _ hr)
            rw [ht, Option.some.injEq] at m1
            subst m1
            rw [List.map_congr_left (fun c hc => hlo c (fun hh => (m4 c hc).1 (by rw [hh]; exact List.mem_cons_self)))]
          · rw [if_neg hr, if_neg (by simp [hxi, hr])]

end Shamrock
