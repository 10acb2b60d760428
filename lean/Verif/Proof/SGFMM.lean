import Verif.Proof.SGMM
/-! The traversal of one leaf of `SGFMMPlummer`. -/
namespace Shamrock.SelfGrav

open Shamrock Shamrock.Fmm

noncomputable section

section
variable {w n sb : Nat} {code : Nat → BitVec w} {t : BVH ℝ} {T : KTree} {st : Nat → Nat} {bx : KTree → V3 ℝ × V3 ℝ} {O : FmmOps} {p : Nat}
  {P : Nat → V3 ℝ} {m G eps eps2 theta : ℝ} {pos : List (V3 ℝ)} {moms : List O.Mass}

/-- The entries `ids` of `acc` have grown by `g`; the others are unchanged. -/
structure Upd (ids : List Nat) (acc acc' : List (V3 ℝ)) (g : Nat → Fin 3 → ℝ) : Prop where
  len : acc'.length = acc.length
  grow : ∀ i ∈ ids, ∀ a, acc[i]? = some a → ∃ a', acc'[i]? = some a' ∧ ∀ c, Fmm.ix a' c = Fmm.ix a c + g i c
  same : ∀ i, i ∉ ids → acc'[i]? = acc[i]?

theorem Upd.refl (ids : List Nat) (acc : List (V3 ℝ)) : Upd ids acc acc fun _ _ => 0 :=
  ⟨rfl, fun i _ a ha => ⟨a, ha, fun c => by rw [add_zero]⟩, fun _ _ => rfl⟩

theorem Upd.trans {ids : List Nat} {a b c : List (V3 ℝ)} {g h : Nat → Fin 3 → ℝ} (x : Upd ids a b g) (y : Upd ids b c h) :
    Upd ids a c fun i k => g i k + h i k := by
  refine ⟨y.len.trans x.len, ?_, fun i hi => (y.same i hi).trans (x.same i hi)⟩
  intro i hi v hv
  obtain ⟨v1, h1, h2⟩ := x.grow i hi v hv
  obtain ⟨v2, h3, h4⟩ := y.grow i hi v1 h1
  refine ⟨v2, h3, fun k => ?_⟩
  rw [h4, h2, add_assoc]

theorem Upd.congr {ids : List Nat} {a b : List (V3 ℝ)} {g h : Nat → Fin 3 → ℝ} (x : Upd ids a b g) (e : ∀ i k, g i k = h i k) : Upd ids a b h := by
  have : g = h := by funext i k; exact e i k
  rwa [← this]

theorem fmmDirect_ok (he : 0 < eps2) (hpos : ∀ i < n, pos[i]? = some (P i)) {ids : List Nat} (hn : ids.Nodup) (hlt : ∀ i ∈ ids, i < n)
    {j : Nat} (hj : j < n) (acc : List (V3 ℝ)) (hacc : acc.length = n) :
    ∃ acc', ids.foldlM (fmmDirect pos G m eps2 j) acc = some acc' ∧ Upd ids acc acc' fun i c => directTerm G m eps2 (P i) (P j) c := by
  obtain ⟨acc', h1, h2, h3, h4⟩ := foldlM_upd (fun i : Nat => i) (fun i a => (p2pOne pos G m eps2 (P i) a j).getD a) ids acc
    (by rw [List.map_id']; exact hn) (fun i hi => by rw [hacc]; exact hlt i hi)
  refine ⟨acc', ?_, h2, ?_, ?_⟩
  · rw [← h1]
    apply foldlM_congr
    intro i hi b
    unfold fmmDirect
    simp only [hpos i (hlt i hi), Option.bind_eq_bind, Option.bind_some]
    cases hb : b[i]? with
    | none => rfl
    | some a =>
      obtain ⟨f', q1, _⟩ := p2pOne_ok (G := G) (m := m) he hpos (P i) a hj
      simp only [Option.bind_some, q1, Option.getD_some]
  · intro i hi a ha
    obtain ⟨f', q1, q2⟩ := p2pOne_ok (G := G) (m := m) he hpos (P i) a hj
    refine ⟨f', ?_, q2⟩
    rw [h3 i hi, ha, Option.map_some, q1, Option.getD_some]
  · intro i hi
    exact h4 i (by rw [List.map_id']; exact hi)

theorem fmmRows_ok (he : 0 < eps2) (hpos : ∀ i < n, pos[i]? = some (P i)) {ids : List Nat} (hn : ids.Nodup) (hlt : ∀ i ∈ ids, i < n) :
    ∀ (js : List Nat), (∀ j ∈ js, j < n) → ∀ (acc : List (V3 ℝ)), acc.length = n →
    ∃ acc', js.foldlM (fun acc j => ids.foldlM (fmmDirect pos G m eps2 j) acc) acc = some acc' ∧
      Upd ids acc acc' fun i c => (js.map fun j => directTerm G m eps2 (P i) (P j) c).sum := by
  intro js
  induction js with
  | nil => intro _ acc _; exact ⟨acc, rfl, Upd.refl ids acc⟩
  | cons j js ih =>
    intro hjs acc hacc
    obtain ⟨a1, h1, h2⟩ := fmmDirect_ok (G := G) (m := m) he hpos hn hlt (hjs j (by simp)) acc hacc
    obtain ⟨a2, h3, h4⟩ := ih (fun x hx => hjs x (by simp [hx])) a1 (h2.len.trans hacc)
    refine ⟨a2, ?_, ?_⟩
    · rw [List.foldlM_cons, h1]; exact h3
    · exact (h2.trans h4).congr fun i c => by rw [List.map_cons, List.sum_cons]

/-- The direct forces that event `e` adds to a particle at `x`. -/
def evNear (t : BVH ℝ) (P : Nat → V3 ℝ) (G m eps : ℝ) (x : V3 ℝ) (c : Fin 3) : TEvent → ℝ
  | .found id => G * m * ((objsIn t id).map fun j => plummer eps x (P j) c).sum
  | .excluded _ => 0

/-- The value at `x` of the expansion that event `e` adds. -/
def evFar (t : BVH ℝ) (P : Nat → V3 ℝ) (p : Nat) (m : ℝ) (s x : V3 ℝ) (c : Fin 3) : TEvent → ℝ
  | .found _ => 0
  | .excluded id => -(m * ((objsIn t id).map fun j => farForce p s (ctr t id) x (P j) c).sum)

theorem fmmEvent_ok (H : FmmLaws O p) (D : DTTIn t T bx) (K : StructOk n sb code t.sortMap t.redMap t.nodes T st)
    (hpos : ∀ i < n, pos[i]? = some (P i)) (hn : 2 * n < 2 ^ 32)
    (hm : ∀ S ∈ T.subtrees, ∃ q, moms[cellIdx t.nodes.length S.ref]? = some q ∧
      H.isM q (massesOf P m (cellObjs t.sortMap st S)) (ctr t (cellIdx t.nodes.length S.ref))) (he : eps ≠ 0) (hth : 0 < theta)
    {k : Nat} (hk : k ≤ t.nodes.length) (sA : V3 ℝ) (size : ℝ)
    {e : TEvent} (hev : e ∈ T.visit t.nodes.length (sgOpen t theta size sA)) (s : O.Grav × List (V3 ℝ)) (hs : s.2.length = n) :
    ∃ s', fmmEvent O t pos moms G m (eps * eps) k sA s e = some s' ∧
      Upd (leafObjs t.sortMap st k) s.2 s'.2 (fun i c => evNear t P G m eps (P i) c e) ∧
      ∀ x c, evG O s'.1 (x - sA) c = evG O s.1 (x - sA) c + evFar t P p m sA x c e := by
  have hS : KTree.leaf k ∈ T.subtrees := whole_subtree_leaf D.whole k hk
  have hids : (leafObjs t.sortMap st k).Nodup := by
    have := objs_nodup K hS
    unfold cellObjs KTree.leaves at this
    simpa using this
  rcases visit_mem _ _ T (self_mem_subtrees T) e hev with ⟨l, hl, rfl, _⟩ | ⟨R, hR, rfl, hcond⟩
  · have hlt := idx_lt D.whole hl
    rw [cellIdx_leaf] at hlt
    have hln : l ≤ t.nodes.length := by omega
    have hcl := K.cells
    have ho := objs_ok K hl
    rw [cellIdx_leaf] at ho
    have hlo : cellObjs t.sortMap st (KTree.leaf l) = leafObjs t.sortMap st l := by
      unfold cellObjs KTree.leaves; simp
    obtain ⟨acc', h1, h2⟩ := fmmRows_ok (G := G) (m := m) (mul_self_pos.2 he) hpos hids (fun i hi => leaf_lt K hk hi)
      (leafObjs t.sortMap st l) (fun j hj => leaf_lt K hln hj) s.2 hs
    refine ⟨(s.1, acc'), ?_, ?_, ?_⟩
    · unfold fmmEvent
      simp only [sub_leaf (show l + t.nodes.length < 2 ^ 32 by omega), forEachInLeaf_ok K l hln, forEachInLeaf_ok K k hk, Option.bind_eq_bind,
        Option.bind_some, h1, Option.pure_def]
    · refine h2.congr fun i c => ?_
      show _ = G * m * ((objsIn t (l + t.nodes.length)).map fun j => plummer eps (P i) (P j) c).sum
      rw [ho.2, hlo]
      exact sum_scale (G * m) _ _ (fun j => directTerm_eq _ _ _) _
    · intro x c
      show _ = _ + 0
      rw [add_zero]
  · obtain ⟨q, q1, q2⟩ := hm R hR
    have hne := open_far hth (D.box R hR) hcond
    refine ⟨(O.addG s.1 (O.getG (O.green (ctr t (cellIdx t.nodes.length R.ref) - sA)) q), s.2), ?_, ?_, ?_⟩
    · unfold fmmEvent
      simp only [center_ok D hR, q1, Option.bind_eq_bind, Option.bind_some]
      rw [if_neg hne]; rfl
    · exact Upd.refl _ _
    · intro x c
      show evG O (O.addG s.1 (O.getG (O.green (ctr t (cellIdx t.nodes.length R.ref) - sA)) q)) (x - sA) c = _ +
        -(m * ((objsIn t (cellIdx t.nodes.length R.ref)).map fun j => farForce p sA (ctr t (cellIdx t.nodes.length R.ref)) x (P j) c).sum)
      unfold evG
      rw [H.ev_add, H.ev_force q2 sA x (lenSq_ne hne) c, excl_sum, (objs_ok K hR).2]

theorem fmmEvents_ok (H : FmmLaws O p) (D : DTTIn t T bx) (K : StructOk n sb code t.sortMap t.redMap t.nodes T st)
    (hpos : ∀ i < n, pos[i]? = some (P i)) (hn : 2 * n < 2 ^ 32)
    (hm : ∀ S ∈ T.subtrees, ∃ q, moms[cellIdx t.nodes.length S.ref]? = some q ∧
      H.isM q (massesOf P m (cellObjs t.sortMap st S)) (ctr t (cellIdx t.nodes.length S.ref))) (he : eps ≠ 0) (hth : 0 < theta)
    {k : Nat} (hk : k ≤ t.nodes.length) (sA : V3 ℝ) (size : ℝ) : ∀ (L : List TEvent),
    (∀ e ∈ L, e ∈ T.visit t.nodes.length (sgOpen t theta size sA)) → ∀ (s : O.Grav × List (V3 ℝ)), s.2.length = n →
    ∃ s', L.foldlM (fmmEvent O t pos moms G m (eps * eps) k sA) s = some s' ∧
      Upd (leafObjs t.sortMap st k) s.2 s'.2 (fun i c => (L.map fun e => evNear t P G m eps (P i) c e).sum) ∧
      ∀ x c, evG O s'.1 (x - sA) c = evG O s.1 (x - sA) c + (L.map fun e => evFar t P p m sA x c e).sum := by
  intro L
  induction L with
  | nil =>
    intro _ s _
    exact ⟨s, rfl, Upd.refl _ _, fun x c => by rw [List.map_nil, List.sum_nil, add_zero]⟩
  | cons e L ih =>
    intro hL s hs
    obtain ⟨s1, h1, h2, h3⟩ := fmmEvent_ok (G := G) H D K hpos hn hm he hth hk sA size (hL e (by simp)) s hs
    obtain ⟨s2, h4, h5, h6⟩ := ih (fun x hx => hL x (by simp [hx])) s1 (h2.len.trans hs)
    refine ⟨s2, ?_, (h2.trans h5).congr fun i c => by rw [List.map_cons, List.sum_cons], ?_⟩
    · rw [List.foldlM_cons, h1]; exact h4
    · intro x c
      rw [h6, h3, List.map_cons, List.sum_cons, add_assoc]

/-- One leaf of `SGFMMPlummer`. -/
theorem fmmLeaf_ok (H : FmmLaws O p) (D : DTTIn t T bx) (K : StructOk n sb code t.sortMap t.redMap t.nodes T st)
    (hpos : ∀ i < n, pos[i]? = some (P i)) (hn : 2 * n < 2 ^ 32)
    (hm : ∀ S ∈ T.subtrees, ∃ q, moms[cellIdx t.nodes.length S.ref]? = some q ∧
      H.isM q (massesOf P m (cellObjs t.sortMap st S)) (ctr t (cellIdx t.nodes.length S.ref))) (he : eps ≠ 0) (hth : 0 < theta)
    (Dst : Nat) (hD : T.depth + 1 ≤ Dst) {k : Nat} (hk : k ≤ t.nodes.length) :
    ∃ (b : V3 ℝ × V3 ℝ) (F : Nat → Nat → Fin 3 → ℝ), cellBox t (k + t.nodes.length) = some b ∧
      (∀ i, ∀ j < n, MMPair t theta p eps P (center b) (halfSide b) i j (F i j)) ∧
      ∀ (acc : List (V3 ℝ)), acc.length = n → ∃ acc', fmmLeaf O t Dst pos moms theta G m (eps * eps) acc k = some acc' ∧
        Upd (leafObjs t.sortMap st k) acc acc' fun i c => G * m * ((List.range n).map fun j => F i j c).sum := by
  have hS : KTree.leaf k ∈ T.subtrees := whole_subtree_leaf D.whole k hk
  have hids : (leafObjs t.sortMap st k).Nodup := by
    have := objs_nodup K hS
    unfold cellObjs KTree.leaves at this
    simpa using this
  have hb := D.box _ hS
  rw [cellIdx_leaf] at hb
  obtain ⟨b, hbe⟩ : ∃ b, b = bx (KTree.leaf k) := ⟨_, rfl⟩
  rw [← hbe] at hb
  obtain ⟨W, hW1, hW2⟩ := row_sum (fun e : TEvent => objsIn t e.id) (T.visit t.nodes.length (sgOpen t theta (halfSide b) (center b))) n
    (visit_perm K D _)
  refine ⟨b, fun i j c => evForce t P p eps (center b) (P i) c j (W j), hb, ?_, ?_⟩
  · intro i j hj
    exact mmPair_ok D hth (center b) (halfSide b) i j (hW1 j hj).1 (hW1 j hj).2
  · intro acc hacc
    obtain ⟨s', h1, h2, h3⟩ := fmmEvents_ok (G := G) H D K hpos hn hm he hth hk (center b) (halfSide b) _ (fun e he => he) (O.zeroG, acc) hacc
    obtain ⟨acc', h4, h5, h6, h7⟩ := foldlM_upd (fun i : Nat => i)
      (fun i a => axpy a (-G) (O.contract (O.fromVec (P i - center b)) s'.1)) (leafObjs t.sortMap st k) s'.2
      (by rw [List.map_id']; exact hids) (fun i hi => by rw [h2.len]; exact lt_of_lt_of_eq (leaf_lt K hk hi) hacc.symm)
    refine ⟨acc', ?_, h5.trans h2.len, ?_, ?_⟩
    · unfold fmmLeaf
      have hc : boxCenter b = center b := boxCenter_eq b
      have hh : max (max (b.2 - b.1).x (b.2 - b.1).y) (b.2 - b.1).z / 2 = halfSide b := rfl
      simp only [hb, hc, hh, whole_traversal D.whole Dst hD, h1, forEachInLeaf_ok K k hk, Option.bind_eq_bind, Option.bind_some]
      rw [← h4]
      apply foldlM_congr
      intro i hi d
      unfold l2pOne
      simp only [hpos i (leaf_lt K hk hi), Option.bind_eq_bind, Option.bind_some]
    · intro i hi a ha
      obtain ⟨a1, g1, g2⟩ := h2.grow i hi a ha
      refine ⟨_, by rw [h6 i hi, g1, Option.map_some], ?_⟩
      intro c
      have hev := h3 (P i) c
      have hz : evG O O.zeroG (P i - center b) c = 0 := H.ev_zero _ _
      rw [ix_axpy, g2 c]
      have hfold : Fmm.ix (O.contract (O.fromVec (P i - center b)) s'.1) c = evG O s'.1 (P i - center b) c := rfl
      rw [hfold, hev, hz, zero_add, ← hW2 (fun e j => evForce t P p eps (center b) (P i) c j e)]
      rw [add_assoc]
      congr 1
      generalize T.visit t.nodes.length (sgOpen t theta (halfSide b) (center b)) = L
      induction L with
      | nil => simp
      | cons e L ih =>
        rw [List.map_cons, List.map_cons, List.map_cons, List.sum_cons, List.sum_cons, List.sum_cons]
        have h1 : evNear t P G m eps (P i) c e + -G * evFar t P p m (center b) (P i) c e =
            G * m * ((objsIn t e.id).map fun j => evForce t P p eps (center b) (P i) c j e).sum := by
          cases e with
          | found id =>
            show G * m * _ + -G * 0 = G * m * _
            rw [mul_zero, add_zero]
            rfl
          | excluded id =>
            show 0 + -G * -(m * _) = G * m * _
            rw [zero_add, neg_mul_neg, mul_assoc]
            rfl
        linear_combination h1 + ih
    · intro i hi
      rw [h7 i (by rw [List.map_id']; exact hi)]
      exact h2.same i hi

end

end

end Shamrock.SelfGrav
