import Verif.Proof.SGMom
/-! Cell to cell interactions and the downward pass of the expansions on a built tree. -/
namespace Shamrock.SelfGrav

open Shamrock Shamrock.Fmm

/-! ### Folds -/

theorem foldlM_range' {α β : Type} (l : List α) (f : β → Nat → Option β) (g : β → α → Option β)
    (hf : ∀ d i x, l[i]? = some x → f d i = g d x) : ∀ (len a : Nat) (d : β), a + len ≤ l.length →
    (List.range' a len).foldlM f d = (seg l a (a + len)).foldlM g d := by
  intro len
  induction len with
  | zero => intro a d _; simp [seg]
  | succ len ih =>
    intro a d h
    have ha : a < l.length := by omega
    have hs : seg l a (a + (len + 1)) = l[a] :: seg l (a + 1) (a + 1 + len) := by
      unfold seg
      rw [List.drop_eq_getElem_cons ha, show a + (len + 1) - a = len + 1 by omega, List.take_succ_cons, show a + 1 + len - (a + 1) = len by omega]
    rw [hs, List.range'_succ, List.foldlM_cons, List.foldlM_cons, hf d a l[a] (List.getElem?_eq_getElem ha)]
    rcases g d l[a] with _ | d'
    · rfl
    · exact ih (a + 1) d' (by omega)

/-- A fold of total steps, each adding to a measure of the accumulator. -/
theorem foldlM_sum {α β : Type} (g : β → α → Option β) (ev : β → ℝ) (v : α → ℝ) : ∀ (l : List α) (d : β),
    (∀ x ∈ l, ∀ d, ∃ d', g d x = some d' ∧ ev d' = ev d + v x) → ∃ d', l.foldlM g d = some d' ∧ ev d' = ev d + (l.map v).sum := by
  intro l
  induction l with
  | nil => intro d _; exact ⟨d, rfl, by simp⟩
  | cons x l ih =>
    intro d h
    obtain ⟨d1, a1, a2⟩ := h x (by simp) d
    obtain ⟨d2, b1, b2⟩ := ih d1 fun y hy => h y (by simp [hy])
    refine ⟨d2, ?_, ?_⟩
    · rw [List.foldlM_cons, a1]; exact b1
    · rw [b2, a2, List.map_cons, List.sum_cons, add_assoc]

/-- The same for a family of measures. -/
theorem foldlM_sums {α β ι : Type} (g : β → α → Option β) (ev : ι → β → ℝ) (v : ι → α → ℝ) : ∀ (l : List α) (d : β),
    (∀ x ∈ l, ∀ d, ∃ d', g d x = some d' ∧ ∀ k, ev k d' = ev k d + v k x) →
    ∃ d', l.foldlM g d = some d' ∧ ∀ k, ev k d' = ev k d + (l.map (v k)).sum := by
  intro l
  induction l with
  | nil => intro d _; exact ⟨d, rfl, by simp⟩
  | cons x l ih =>
    intro d h
    obtain ⟨d1, a1, a2⟩ := h x (by simp) d
    obtain ⟨d2, b1, b2⟩ := ih d1 fun y hy => h y (by simp [hy])
    refine ⟨d2, ?_, ?_⟩
    · rw [List.foldlM_cons, a1]; exact b1
    · intro k
      rw [b2, a2, List.map_cons, List.sum_cons, add_assoc]

/-- Summing group by group, over groups without repetition, is summing over the members of these groups. -/
theorem sum_group (F : Nat × Nat → ℝ) (L : List Nat) (hL : L.Nodup) (q : Nat → Prop) [DecidablePred q] : ∀ X : List (Nat × Nat),
    (∀ ab ∈ X, ab.1 ∈ L ↔ q ab.1) →
    (L.map fun c => ((X.filter fun ab => decide (ab.1 = c)).map F).sum).sum = ((X.filter fun ab => decide (q ab.1)).map F).sum := by
  intro X
  induction X with
  | nil => intro _; simp
  | cons ab X ih =>
    intro h
    have ih := ih fun x hx => h x (by simp [hx])
    have hstep : ∀ c, (((ab :: X).filter fun ab => decide (ab.1 = c)).map F).sum =
        (if ab.1 = c then F ab else 0) + ((X.filter fun ab => decide (ab.1 = c)).map F).sum := by
      intro c
      rw [List.filter_cons]
      by_cases hc : ab.1 = c
      · simp [hc]
      · simp [hc]
    have hsum : (L.map fun c => (((ab :: X).filter fun ab => decide (ab.1 = c)).map F).sum).sum =
        (L.map fun c => if ab.1 = c then F ab else 0).sum + (L.map fun c => ((X.filter fun ab => decide (ab.1 = c)).map F).sum).sum := by
      rw [← List.sum_map_add]
      congr 1
      exact List.map_congr_left fun c _ => hstep c
    have hone : ∀ L : List Nat, L.Nodup → (L.map fun c => if ab.1 = c then F ab else 0).sum = if ab.1 ∈ L then F ab else 0 := by
      intro L
      induction L with
      | nil => intro _; simp
      | cons c L ihL =>
        intro hn
        rw [List.nodup_cons] at hn
        rw [List.map_cons, List.sum_cons, ihL hn.2]
        by_cases hc : ab.1 = c
        · rw [if_pos hc, if_neg (by rw [hc]; exact hn.1), if_pos (by simp [hc])]; simp
        · rw [if_neg hc]; simp [hc]
    rw [hsum, hone L hL, ih, List.filter_cons]
    by_cases hq : q ab.1
    · rw [if_pos ((h ab (by simp)).2 hq), if_pos (by simpa using hq)]; simp
    · rw [if_neg fun hc => hq ((h ab (by simp)).1 hc), if_neg (by simpa using hq)]; simp

noncomputable section

section
variable {w n sb : Nat} {code : Nat → BitVec w} {t : BVH ℝ} {T : KTree} {st : Nat → Nat} {bx : KTree → V3 ℝ × V3 ℝ} {O : FmmOps} {p : Nat}
  {P : Nat → V3 ℝ} {m : ℝ} {moms : List O.Mass} {ref : List (Nat × Nat)} {out : List (Nat × Nat)} {offs : List W32}

/-- Value at `h` of an expansion. -/
abbrev evG (O : FmmOps) (d : O.Grav) (h : V3 ℝ) (c : Fin 3) : ℝ := Fmm.ix (O.contract (O.fromVec h) d) c

/-- What the pair of cells `ab` contributes at the point `x` of its first cell: the expansion of the field of each particle of the second cell. -/
def farTerm (t : BVH ℝ) (P : Nat → V3 ℝ) (m : ℝ) (p : Nat) (x : V3 ℝ) (c : Fin 3) (ab : Nat × Nat) : ℝ :=
  ((objsIn t ab.2).map fun j =>
    m * taylorSum (fun s => gravField (along (ctr t ab.2 - ctr t ab.1) ((P j - ctr t ab.2) - (x - ctr t ab.1)) s) c) p).sum

/-- The pairs of cells are cells, of different centers. -/
def FarOk (t : BVH ℝ) (T : KTree) (ref : List (Nat × Nat)) : Prop :=
  ∀ ab ∈ ref, (∃ B ∈ T.subtrees, cellIdx t.nodes.length B.ref = ab.2) ∧ ctr t ab.2 - ctr t ab.1 ≠ ⟨0, 0, 0⟩

theorem m2lCell_ok (H : FmmLaws O p) (D : DTTIn t T bx) (K : StructOk n sb code t.sortMap t.redMap t.nodes T st)
    (hm : ∀ S ∈ T.subtrees, ∃ q, moms[cellIdx t.nodes.length S.ref]? = some q ∧
      H.isM q (massesOf P m (cellObjs t.sortMap st S)) (ctr t (cellIdx t.nodes.length S.ref)))
    (G : GroupedBy (2 * t.nodes.length + 1) ref out offs) (hr : FarOk t T ref) {S : KTree} (hS : S ∈ T.subtrees) :
    ∃ d, m2lCell O t moms out offs (cellIdx t.nodes.length S.ref) = some d ∧ ∀ x c, evG O d (x - ctr t (cellIdx t.nodes.length S.ref)) c =
      ((ref.filter fun ab => decide (ab.1 = cellIdx t.nodes.length S.ref)).map (farTerm t P m p x c)).sum := by
  obtain ⟨s, e, h1, h2, h3, h4, h5⟩ := G.slice _ (idx_lt D.whole hS)
  obtain ⟨g, hg⟩ : ∃ a : Nat, a = cellIdx t.nodes.length S.ref := ⟨_, rfl⟩
  have hc := center_ok D hS
  rw [← hg] at h1 h2 h5 hc ⊢
  unfold m2lCell
  simp only [hc, h1, h2, Option.bind_eq_bind, Option.bind_some]
  have hin : ∀ ab ∈ seg out s.toNat e.toNat, ab ∈ ref ∧ ab.1 = g := by
    intro ab hab
    have := (h5.mem_iff).1 hab
    simpa using this
  obtain ⟨d, hd, hv⟩ := foldlM_sums (ι := V3 ℝ × Fin 3)
    (fun (d : O.Grav) (ab : Nat × Nat) => if ab.1 = g then (moms[ab.2]?).bind fun q => (cellCenter t ab.2).bind fun sB =>
      some (O.addG d (O.getG (O.green (sB - ctr t g)) q)) else none)
    (fun xc d => evG O d (xc.1 - ctr t g) xc.2) (fun xc ab => farTerm t P m p xc.1 xc.2 ab) (seg out s.toNat e.toNat) O.zeroG (by
      intro ab hab d
      obtain ⟨hab1, hab2⟩ := hin ab hab
      obtain ⟨⟨B, hB, hBi⟩, hne⟩ := hr ab hab1
      obtain ⟨q, hq1, hq2⟩ := hm B hB
      have hcB := center_ok D hB
      rw [hBi] at hq1 hq2 hcB
      rw [hab2] at hne
      refine ⟨O.addG d (O.getG (O.green (ctr t ab.2 - ctr t g)) q), ?_, ?_⟩
      · simp only [hab2, if_true, hq1, hcB, Option.bind_some]
      · rintro ⟨x, c⟩
        show evG O (O.addG d _) _ _ = _
        unfold evG
        rw [H.ev_add, H.ev_force hq2 (ctr t g) x hne c]
        congr 1
        unfold farTerm massesOf
        have ho := (objs_ok K hB).2
        rw [hBi] at ho
        rw [ho, List.map_map, hab2]
        rfl)
  refine ⟨d, ?_, ?_⟩
  · have hee : e.toNat = s.toNat + (e.toNat - s.toNat) := by omega
    rw [foldlM_range' out _ (fun (d : O.Grav) (ab : Nat × Nat) => if ab.1 = g then (moms[ab.2]?).bind fun q => (cellCenter t ab.2).bind fun sB =>
      some (O.addG d (O.getG (O.green (sB - ctr t g)) q)) else none) (by
        intro d i ab hi
        unfold m2lAdd
        simp only [hi, Option.bind_eq_bind, Option.bind_some, Option.pure_def]) _ _ _ (by omega), ← hee]
    exact hd
  · intro x c
    have := hv (x, c)
    simp only at this
    rw [this]
    unfold evG
    rw [H.ev_zero, zero_add]
    exact (h5.map _).sum_eq

theorem l2lItem_eq (D : DTTIn t T bx) :
    l2lItem O t = downItemAt O.addG (fun i c v => O.offsetG v (ctr t i) (ctr t c)) t.nodes := by
  funext gid
  unfold l2lItem downItemAt
  by_cases h : gid < t.nodes.length
  · obtain ⟨l, r, hlr⟩ := (internals_subtrees T gid).1 ((whole_ints D.whole).mem_iff.2 (List.mem_range.2 h))
    obtain ⟨nd, e1, e2, e3⟩ := whole_children D.whole hlr
    have hg := center_ok D hlr
    rw [node_idx] at hg
    simp only [e1, e2, e3, center_ok D (kid_mem hlr).1, center_ok D (kid_mem hlr).2, hg]
  · rw [List.getElem?_eq_none (by omega)]

theorem l2lDown_eq (D : DTTIn t T bx) : ∀ (scheds : List (List Nat)) (b : List (Bool × O.Grav)),
    l2lDown O t scheds b = downAt O.addG (fun i c v => O.offsetG v (ctr t i) (ctr t c)) t.nodes scheds b := by
  intro scheds
  induction scheds with
  | nil => intro b; rfl
  | cons s r ih =>
    intro b
    unfold l2lDown downAt
    rw [l2lItem_eq D]
    congr 1
    funext x
    exact ih x

/-- The expansion of a cell after the downward pass: the sum of those of the cell and its ancestors. -/
theorem down_value (H : FmmLaws O p) (own : Nat → O.Grav) {S : KTree} {path : List KTree} {v : O.Grav}
    (h : Down O.addG (fun i c v => O.offsetG v (ctr t i) (ctr t c)) t.nodes.length own T S path v) (x : V3 ℝ) (c : Fin 3) :
    evG O v (x - ctr t (cellIdx t.nodes.length S.ref)) c =
      (path.map fun A : KTree => evG O (own (cellIdx t.nodes.length A.ref)) (x - ctr t (cellIdx t.nodes.length A.ref)) c).sum := by
  induction h with
  | root => simp
  | left _ ih =>
    rw [node_idx] at ih
    unfold evG at ih ⊢
    rw [H.ev_add, H.ev_shift, ih, List.map_cons, List.sum_cons]
  | right _ ih =>
    rw [node_idx] at ih
    unfold evG at ih ⊢
    rw [H.ev_add, H.ev_shift, ih, List.map_cons, List.sum_cons]

theorem gravDown_ok (H : FmmLaws O p) (D : DTTIn t T bx) (scheds : List (List Nat)) (hd : T.depth ≤ scheds.length) (own : List O.Grav)
    (hlen : own.length = 2 * t.nodes.length + 1) :
    ∃ grav, gravDown O t scheds own = some grav ∧ grav.length = 2 * t.nodes.length + 1 ∧ ∀ S ∈ T.subtrees, ∃ (v : O.Grav) (path : List KTree),
      grav[cellIdx t.nodes.length S.ref]? = some v ∧ path.Nodup ∧ (∀ A, A ∈ path ↔ A ∈ T.subtrees ∧ S ∈ A.subtrees) ∧
      ∀ x c, evG O v (x - ctr t (cellIdx t.nodes.length S.ref)) c =
        (path.map fun A : KTree => evG O (own[cellIdx t.nodes.length A.ref]?.getD O.zeroG) (x - ctr t (cellIdx t.nodes.length A.ref)) c).sum := by
  obtain ⟨b, h1, h2, h3⟩ := down_ok (add := O.addG) (sh := fun i c v => O.offsetG v (ctr t i) (ctr t c)) D.whole scheds hd own hlen
    (own := fun c => own[c]?.getD O.zeroG) (by intro c v hc; rw [hc]; rfl)
  refine ⟨b.map (·.2), ?_, by simp [h2], ?_⟩
  · unfold gravDown
    have h0 : own[0]? = some (own[0]?.getD O.zeroG) := by rw [List.getElem?_eq_getElem (by omega)]; rfl
    rw [h0]
    simp only [Option.bind_eq_bind, Option.bind_some, l2lDown_eq D, Option.pure_def]
    rw [h1]
    rfl
  · intro S hS
    obtain ⟨path, v, hp, hv⟩ := h3 S hS
    obtain ⟨q1, q2⟩ := down_path D.whole hp
    refine ⟨v, path, by rw [List.getElem?_map, hv]; rfl, q1, q2, ?_⟩
    intro x c
    exact down_value H _ hp x c

/-- The cells that contain a leaf. -/
def pathCells (t : BVH ℝ) (path : List KTree) : List Nat := path.map fun A : KTree => cellIdx t.nodes.length A.ref

theorem path_cells (D : DTTIn t T bx) (K : StructOk n sb code t.sortMap t.redMap t.nodes T st) {k i : Nat} {path : List KTree}
    (hk : k ≤ t.nodes.length) (hi : i ∈ leafObjs t.sortMap st k) (hp : path.Nodup)
    (hpa : ∀ A, A ∈ path ↔ A ∈ T.subtrees ∧ KTree.leaf k ∈ A.subtrees) :
    (pathCells t path).Nodup ∧ ∀ c < 2 * t.nodes.length + 1, c ∈ pathCells t path ↔ i ∈ objsIn t c := by
  constructor
  · refine List.Nodup.map_on ?_ hp
    intro a ha b hb hab
    exact idx_inj D.whole ((hpa a).1 ha).1 ((hpa b).1 hb).1 hab
  · intro c hc
    obtain ⟨S, hS, rfl⟩ := (whole_cells D.whole c).1 hc
    rw [(objs_ok K hS).2]
    constructor
    · intro h
      obtain ⟨A, hA, hAe⟩ := List.mem_map.1 h
      have := idx_inj D.whole ((hpa A).1 hA).1 hS hAe
      subst this
      have hl := (leaves_subtrees A k).1 ((hpa A).1 hA).2
      exact List.mem_flatMap.2 ⟨k, hl, hi⟩
    · intro h
      obtain ⟨k', hk', hi'⟩ := List.mem_flatMap.1 h
      have hkk : k' = k := by
        by_contra hne
        have hnd := (all_objs K).nodup_iff.2 List.nodup_range
        rw [List.nodup_flatMap] at hnd
        have hle := subtree_leaf_le K S hS k' hk'
        haveI : Std.Symm (Function.onFun List.Disjoint (leafObjs t.sortMap st)) := ⟨fun a b h => List.Disjoint.symm h⟩
        exact hnd.2.forall (List.mem_range.2 (by omega)) (List.mem_range.2 (by omega)) hne hi' hi
      subst hkk
      exact List.mem_map.2 ⟨S, (hpa S).2 ⟨hS, (leaves_subtrees S k').2 hk'⟩, rfl⟩

end

end

end Shamrock.SelfGrav
