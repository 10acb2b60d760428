import Verif.Proof.AmrGhostGeo
import Verif.Proof.SphGhostFind
/-! Proofs about the candidates. -/
namespace Shamrock.Gz

attribute [local irreducible] u64max getSplit

/-- The traversal of the patch tree with the test of the candidates: it reports exactly the patches whose box meets the mapped box, each once. -/
theorem leaves_ok {box : PatchCoord → V3 Int × V3 Int} {t : PTree} (h : THist PTree.init t) (hN : BoxNest box t) (hL : LeafLinks t) {rs : List Nat}
    (hr : Enumerates rs t.roots) (hnd : rs.Nodup) {s : SSt Int} {ids : List Nat} (hb : serBuild box t rs = .ok (s, ids)) (mapped : Box Int) :
    ∃ (N : Nat) (O : List (Nat × SNode Int)), (∀ f, forEachLeaf s (nodeTouch mapped) (f + N) ids.reverse [] = some (.ok O)) ∧ (O.map (·.1)).Nodup ∧
      (∀ R ∈ O.map (·.1), ∃ b, LeafPatch box t R b) ∧ ∀ R b, LeafPatch box t R b → (R ∈ O.map (·.1) ↔ (b.intersect mapped).isNotEmpty = true) := by
  have H := h.inv TInv.init
  have L := h.lev
  obtain ⟨s', ids', K0, e0, SO⟩ := serBuild_ok box t H L rs hr hnd
  rw [hb, Res.ok.injEq, Prod.mk.injEq] at e0
  obtain ⟨rfl, rfl⟩ := e0
  obtain ⟨N, O, X, c1, c2, c3, c4⟩ := Visits.many (t := t) (s := s) (K := K0) (cd := nodeTouch mapped) ids.reverse rs.reverse
    (by
      rw [List.forall₂_reverse_iff]
      refine forall2_of_getElem _ _ SO.len fun k j r h1 h2 => ?_
      obtain ⟨m', e1, e2⟩ := SO.roots k r h2
      rw [h1, Option.some.injEq] at e1
      subst e1
      exact visits_one H SO _ hL.leaf _ j r (Nat.le_refl _) e2)
    (by
      rw [List.pairwise_reverse, List.pairwise_iff_getElem]
      intro i j hi hj hij y h1 h2
      have := Under.roots H ((hr _).1 (List.getElem_mem hi)) ((hr _).1 (List.getElem_mem hj)) h2 h1
      have := (hnd.getElem_inj_iff).1 this
      omega)
  have hacc : ∀ y n, t.tree y = some n → n.isLeaf = true → (y ∈ X ↔ ((Box.mk (box n.coord).1 (box n.coord).2).intersect mapped).isNotEmpty = true) := by
    intro y n hy hl
    have hyK : y ∈ K0 := (SO.mem y).2 ⟨n, hy⟩
    obtain ⟨m, hm⟩ := List.mem_iff_getElem?.1 hyK
    obtain ⟨n', nd, a1, a2, a3, a4, a5, a6⟩ := SO.ent m y hm
    rw [hy, Option.some.injEq] at a1
    subst a1
    rw [c4]
    constructor
    · rintro ⟨x, hx, -, hu, hall⟩
      obtain ⟨m', nd', b1, b2, b3⟩ := hall y hu (Under.refl y)
      have := nodup_idx SO.nodup hm b1
      subst this
      rw [a2, Option.some.injEq] at b2
      subst b2
      unfold nodeTouch at b3
      rw [a4, a5] at b3
      exact b3
    · intro ht
      obtain ⟨r, hrr, hru⟩ := underRoot H _ y n (Nat.le_refl _) hy
      refine ⟨r, List.mem_reverse.2 ((hr r).2 hrr), ⟨n, hy, hl⟩, hru, fun z hz1 hz2 => ?_⟩
      obtain ⟨zn, hzn⟩ : ∃ zn, t.tree z = some zn := by
        have hroot := (H.root r).1 hrr
        cases hz1 with
        | refl => obtain ⟨n, hn, _⟩ := hroot; exact ⟨n, hn⟩
        | step b1 _ _ _ _ => exact ⟨_, b1⟩
      obtain ⟨mz, hmz⟩ := List.mem_iff_getElem?.1 ((SO.mem z).2 ⟨zn, hzn⟩)
      obtain ⟨zn', znd, z1, z2, z3, z4, z5, z6⟩ := SO.ent mz z hmz
      obtain ⟨-, u2, u3⟩ := treeV_under H L SO (fun _ => (0 : Int)) hN hz2 mz m znd nd hmz hm z2 a2
      refine ⟨mz, znd, hmz, z2, ?_⟩
      rw [← a4, ← a5] at ht
      exact notEmpty_mono _ _ _ u2 u3 ht
  have hOlink : ∀ o y, Reports t s K0 o y → ∃ n, t.tree y = some n ∧ o.1 = n.linked := by
    rintro o y ⟨m, nd, n, h1, h2, h3, rfl⟩
    exact ⟨n, h3, rfl⟩
  have hXleaf : ∀ y ∈ X, ∃ n, t.tree y = some n ∧ n.isLeaf = true := by
    intro y hy
    obtain ⟨x, -, h2, -⟩ := (c4 y).1 hy
    exact h2
  have hOn : ∀ (O : List (Nat × SNode Int)) (X : List Nat), List.Forall₂ (Reports t s K0) O X → X.Nodup → (∀ y ∈ X, ∃ n, t.tree y = some n ∧ n.isLeaf = true) →
      (O.map (·.1)).Nodup := by
    intro O X h
    induction h with
    | nil => intro _ _; exact List.nodup_nil
    | @cons o y O X h1 h2 ih =>
      intro hn hl
      rw [List.nodup_cons] at hn
      rw [List.map_cons, List.nodup_cons]
      refine ⟨fun hm => ?_, ih hn.2 fun y hy => hl y (List.mem_cons_of_mem _ hy)⟩
      obtain ⟨o', ho', he⟩ := List.mem_map.1 hm
      obtain ⟨y', hy', hrep⟩ := forall2_exists_left h2 _ ho'
      obtain ⟨n1, a1, a2⟩ := hOlink o y h1
      obtain ⟨n2, b1, b2⟩ := hOlink o' y' hrep
      obtain ⟨l1, d1, d2⟩ := hl y List.mem_cons_self
      obtain ⟨l2, d3, d4⟩ := hl y' (List.mem_cons_of_mem _ hy')
      rw [a1, Option.some.injEq] at d1
      subst d1
      rw [b1, Option.some.injEq] at d3
      subst d3
      have := hL.inj y y' n1 n2 a1 b1 d2 d4 (by rw [← a2, ← b2]; exact he.symm)
      subst this
      exact hn.1 hy'
  refine ⟨N + 1, O, fun f => ?_, hOn O X c2 c3 hXleaf, fun R hR => ?_, fun R b hR => ?_⟩
  · have := c1 (f + 1) [] []
    rw [List.append_nil, List.nil_append] at this
    rw [show f + (N + 1) = f + 1 + N by omega, this]
    rfl
  · obtain ⟨o, ho, rfl⟩ := List.mem_map.1 hR
    obtain ⟨y, hy, hrep⟩ := forall2_exists_left c2 _ ho
    obtain ⟨n, a1, a2⟩ := hOlink o y hrep
    obtain ⟨n', d1, d2⟩ := hXleaf y hy
    rw [a1, Option.some.injEq] at d1
    subst d1
    exact ⟨_, y, n, a1, d2, a2.symm, rfl⟩
  · obtain ⟨l, n, l1, l2, rfl, rfl⟩ := hR
    rw [← hacc l n l1 l2]
    constructor
    · intro hm
      obtain ⟨o, ho, he⟩ := List.mem_map.1 hm
      obtain ⟨y, hy, hrep⟩ := forall2_exists_left c2 _ ho
      obtain ⟨n', a1, a2⟩ := hOlink o y hrep
      obtain ⟨n2, d1, d2⟩ := hXleaf y hy
      rw [a1, Option.some.injEq] at d1
      subst d1
      have := hL.inj l y n n' l1 a1 l2 d2 (by rw [← a2]; exact he.symm)
      subst this
      exact hy
    · intro hy
      obtain ⟨o, ho, hrep⟩ := forall2_mem_right c2 _ hy
      obtain ⟨n', a1, a2⟩ := hOlink o l hrep
      rw [l1, Option.some.injEq] at a1
      subst a1
      exact List.mem_map.2 ⟨o, ho, a2⟩

/-- What one pair of patches contributes for one tile. -/
def candPair (pav : Paving) (bS bR : Box Int) (S R : Nat) (k : V3 Int) : List ((Nat × Nat) × V3 Int) :=
  if (S = R ∧ k = ⟨0, 0, 0⟩) ∨ (bR.intersect (pav.fBox bS k)).isNotEmpty = false then [] else [((S, R), k)]

theorem cand_one (id : Nat) (k : V3 Int) (R : Nat) : ∀ (O : List (Nat × SNode Int)), (O.map (·.1)).Nodup →
    (O.filterMap (candOne id k)).filter (fun e => decide (e.1 = (id, R))) = if R ∈ O.map (·.1) ∧ ¬ (id = R ∧ k = ⟨0, 0, 0⟩) then [((id, R), k)] else [] := by
  intro O
  induction O with
  | nil => intro _; simp
  | cons o O ih =>
    intro hn
    rw [List.map_cons, List.nodup_cons] at hn
    have hz : (k.x = 0 ∧ k.y = 0 ∧ k.z = 0) ↔ k = ⟨0, 0, 0⟩ := by
      obtain ⟨a, b, c⟩ := k
      simp
    have hco : candOne id k o = if o.1 = id ∧ k = ⟨0, 0, 0⟩ then none else some ((id, o.1), k) := by
      unfold candOne
      simp only [hz]
    rw [List.filterMap_cons, hco]
    by_cases h1 : o.1 = id ∧ k = ⟨0, 0, 0⟩
    · rw [if_pos h1]
      dsimp only
      rw [ih hn.2]
      by_cases hR : R = o.1
      · subst hR
        rw [if_neg (fun hh => hn.1 hh.1), if_neg (fun hh => hh.2 ⟨h1.1.symm, h1.2⟩)]
      · rw [List.map_cons]
        have : R ∈ o.1 :: O.map (·.1) ↔ R ∈ O.map (·.1) := by rw [List.mem_cons]; simp [hR]
        simp only [this]
    · rw [if_neg h1]
      dsimp only
      rw [List.filter_cons, ih hn.2]
      by_cases hR : o.1 = R
      · subst hR
        rw [if_pos (by simp), if_neg (fun hh => hn.1 hh.1), if_pos ⟨by simp, fun hh => h1 ⟨hh.1.symm, hh.2⟩⟩]
      · rw [if_neg (by simpa using hR), List.map_cons]
        have : R ∈ o.1 :: O.map (·.1) ↔ R ∈ O.map (·.1) := by rw [List.mem_cons]; simp [Ne.symm hR]
        simp only [this]

/-- All tiles, all local patches. -/
theorem candLoop_ok {box : PatchCoord → V3 Int × V3 Int} {t : PTree} (h : THist PTree.init t) (hN : BoxNest box t) (hL : LeafLinks t) {rs : List Nat}
    (hr : Enumerates rs t.roots) (hnd : rs.Nodup) {s : SSt Int} {ids : List Nat} (hb : serBuild box t rs = .ok (s, ids)) (pav : Paving)
    (boxes : Nat → Option (Box Int)) (pbox : Nat → Box Int) : ∀ (ps : List (V3 Int × Nat)) (m : List ((Nat × Nat) × V3 Int)), MMOk m → (∀ p ∈ ps, boxes p.2 = some (pbox p.2)) →
    ∃ (N : Nat) (m' add : List ((Nat × Nat) × V3 Int)), (∀ f, candLoop s ids (f + N) pav boxes ps m = some (.ok m')) ∧ MMOk m' ∧ KeyEq m' (m ++ add) ∧
      (∀ e ∈ add, e.1.1 ∈ ps.map (·.2) ∧ ∃ b, LeafPatch box t e.1.2 b) ∧
      ∀ S R b, LeafPatch box t R b → add.filter (fun e => decide (e.1 = (S, R))) = (ps.filter fun p => decide (p.2 = S)).flatMap fun p => candPair pav (pbox S) b S R p.1 := by
  intro ps
  induction ps with
  | nil => intro m hm _; exact ⟨0, m, [], fun _ => rfl, hm, by rw [List.append_nil]; exact KeyEq.refl _, fun e he => absurd he List.not_mem_nil, fun _ _ _ _ => rfl⟩
  | cons p ps ih =>
    intro m hm hp
    obtain ⟨N1, O, o1, o2, o3, o4⟩ := leaves_ok h hN hL hr hnd hb (pav.fBox (pbox p.2) p.1)
    obtain ⟨q1, q2⟩ := foldl_emplace_ok (O.filterMap (candOne p.2 p.1)) m hm
    obtain ⟨N2, m', add, b1, b2, b3, b4, b5⟩ := ih _ q1 fun q hq => hp q (List.mem_cons_of_mem _ hq)
    have hkey : ∀ e ∈ O.filterMap (candOne p.2 p.1), e.1.1 = p.2 ∧ e.1.2 ∈ O.map (·.1) := by
      intro e he
      obtain ⟨o, ho, hf⟩ := List.mem_filterMap.1 he
      unfold candOne at hf
      split at hf
      · cases hf
      · rw [Option.some.injEq] at hf
        rw [← hf]
        exact ⟨rfl, List.mem_map_of_mem (f := fun x : Nat × SNode Int => x.1) ho⟩
    refine ⟨N1 + N2, m', O.filterMap (candOne p.2 p.1) ++ add, fun f => ?_, b2, ?_, ?_, ?_⟩
    · rw [candLoop]
      unfold candId
      rw [hp p List.mem_cons_self]
      dsimp only
      rw [show f + (N1 + N2) = (f + N2) + N1 by omega, o1 (f + N2)]
      dsimp only [Option.map_some, Res.bind]
      rw [show f + N2 + N1 = f + N1 + N2 by omega]
      exact b1 (f + N1)
    · have := b3.trans (q2.append (KeyEq.refl add))
      rw [List.append_assoc] at this
      exact this
    · intro e he
      rcases List.mem_append.1 he with he | he
      · obtain ⟨h1, h2⟩ := hkey e he
        exact ⟨by rw [h1]; exact List.mem_map_of_mem (f := fun x : V3 Int × Nat => x.2) List.mem_cons_self, o3 _ h2⟩
      · obtain ⟨h1, h2⟩ := b4 e he
        exact ⟨List.mem_cons_of_mem _ h1, h2⟩
    · intro S R b hR
      rw [List.filter_append, b5 S R b hR, List.filter_cons]
      by_cases hS : p.2 = S
      · subst hS
        rw [if_pos (by simp), List.flatMap_cons, cand_one _ _ _ O o2]
        congr 1
        unfold candPair
        have h4 := o4 R b hR
        by_cases hc : (b.intersect (pav.fBox (pbox p.2) p.1)).isNotEmpty = true
        · by_cases hz : p.2 = R ∧ p.1 = ⟨0, 0, 0⟩
          · rw [if_neg (fun hh => hh.2 hz), if_pos (Or.inl hz)]
          · rw [if_pos ⟨h4.2 hc, hz⟩, if_neg (by rintro (hh | hh); exacts [hz hh, by rw [hc] at hh; cases hh])]
        · rw [if_neg (fun hh => hc (h4.1 hh.1)), if_pos (Or.inr (by simpa using hc))]
      · rw [if_neg (by simpa using hS)]
        have : (O.filterMap (candOne p.2 p.1)).filter (fun e => decide (e.1 = (S, R))) = [] := by
          rw [List.filter_eq_nil_iff]
          intro e he hk
          simp only [decide_eq_true_eq] at hk
          exact hS (by rw [← (hkey e he).1, hk])
        rw [this, List.nil_append]

/-- The pairs of the loops for one sender are the tiles, once each. -/
theorem pairs_of (tl : List (V3 Int)) (locals : List Nat) (hn : locals.Nodup) (S : Nat) (hS : S ∈ locals) :
    ((tl.flatMap fun k => locals.map fun id => (k, id)).filter fun p => decide (p.2 = S)) = tl.map fun k => (k, S) := by
  induction tl with
  | nil => rfl
  | cons k tl ih =>
    rw [List.flatMap_cons, List.filter_append, ih, List.map_cons]
    have : (locals.map fun id => (k, id)).filter (fun p => decide (p.2 = S)) = [(k, S)] := by
      rw [List.filter_map]
      have h1 : (locals.filter ((fun p : V3 Int × Nat => decide (p.2 = S)) ∘ fun id => (k, id))) = [S] := by
        show locals.filter (fun id => decide (id = S)) = [S]
        rw [List.filter_eq, List.Nodup.count hn, if_pos hS]
        rfl
      rw [h1]; rfl
    rw [this]; rfl

end Shamrock.Gz
