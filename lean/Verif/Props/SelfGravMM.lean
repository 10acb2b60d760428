import Verif.Props.SelfGrav
import Verif.Proof.SGFMM
/-!
C70: the self gravity of a patch by one traversal of the tree per particle (`mm`) or per leaf (`fmm`).
-/
namespace Shamrock.SelfGrav

open Shamrock Shamrock.Fmm

noncomputable section

variable {w : Nat} {A : GridArith ℝ} {C : MCode w} {env : BVHEnv ℝ} {big small : ℝ} {pos : List (V3 ℝ)} {P : Nat → V3 ℝ}
  {cnt : BitVec 32} {lo hi : V3 ℝ} {t : BVH ℝ} {theta : ℝ}

/-- C70 (criterion). For a positive opening angle, a cell is not opened exactly when it is well separated from the receiver: the centers
differ, and the half sizes of the two are at most `theta` times the distance. -/
theorem C70_criterion (hth : 0 < theta) (size : ℝ) (s : V3 ℝ) {id : Nat} {b : V3 ℝ × V3 ℝ} (hb : cellBox t id = some b) :
    sgOpen t theta size s id = false ↔ WellSeparated theta size s b := sgOpen_iff hth size s hb

/-- C70 (`mm`). For every order of the expansion, every set of particles, every positive opening angle and every schedule: the
acceleration of particle `i` grows by `G m Σ_j F i j`, where each particle `j` counts exactly once, either with the softened force, in a
leaf that is not well separated from the position of `i`, or with the force of the expansion around the center of a well separated cell. -/
theorem C70_sgmm (k : Fin 5) (H : BVHIn A C env big small pos pos P P cnt lo hi) (level : Nat)
    (ht : rebuildFromPositions A C env big small pos cnt lo hi level = .ok t) (m : ℝ) (up : List (List Nat))
    (hup : up.length = karrasTreeDepth w) (old : Nat → (fmmOps k).Mass) (hth : 0 < theta) (G eps : ℝ) (heps : eps ≠ 0)
    (acc : List (V3 ℝ)) (hacc : acc.length = cnt.toNat) :
    ∃ acc', sgmm (fmmOps k) t (3 * C.bits + 1) up old pos cnt.toNat theta G m eps acc = some acc' ∧ acc'.length = cnt.toNat ∧
      ∀ i < cnt.toNat, ∀ a, acc[i]? = some a → ∃ (a' : V3 ℝ) (F : Nat → Fin 3 → ℝ), acc'[i]? = some a' ∧
        (∀ j < cnt.toNat, MMPair t theta (k.val + 1) eps P (P i) 0 i j (F j)) ∧
        ∀ c, Fmm.ix a' c = Fmm.ix a c + G * m * ((List.range cnt.toNat).map fun j => F j c).sum := by
  unfold rebuildFromPositions at ht
  obtain ⟨T, st, bx, D, K, _⟩ := dttIn_of_build H level ht
  have hb := H.code.1
  have hd := K.depth
  obtain ⟨moms, e1, _, e3⟩ := treeMoments_ok (m := m) (fmmLaws k) D K H.lower up (by rw [hup]; unfold karrasTreeDepth; omega) old
  haveI : Nonempty (V3 ℝ) := ⟨⟨0, 0, 0⟩⟩
  obtain ⟨acc', h1, h2, h3⟩ := mapM_range_exists
    (mmPart (fmmOps k) t (3 * C.bits + 1) pos moms theta G m (eps * eps) acc) (fun i a' => ∀ a, acc[i]? = some a →
      ∃ (F : Nat → Fin 3 → ℝ), (∀ j < cnt.toNat, MMPair t theta (k.val + 1) eps P (P i) 0 i j (F j)) ∧
        ∀ c, Fmm.ix a' c = Fmm.ix a c + G * m * ((List.range cnt.toNat).map fun j => F j c).sum) cnt.toNat (by
    intro i hi
    have ha : acc[i]? = some (acc[i]'(by omega)) := List.getElem?_eq_getElem (by omega)
    have hl := H.lim
    obtain ⟨a', F, q1, q2, q3⟩ := mmPart_ok (G := G) (fmmLaws k) (m2p_center k) D K H.lower (by omega) e3 heps hth (3 * C.bits + 1)
      (by omega) acc hi ha
    refine ⟨a', q1, ?_⟩
    intro a ha'
    rw [ha, Option.some.injEq] at ha'
    subst ha'
    exact ⟨F, q2, q3⟩)
  refine ⟨acc', ?_, h2, ?_⟩
  · unfold sgmm
    simp only [e1, Option.bind_eq_bind, Option.bind_some]
    exact h1
  · intro i hi a ha
    have ha' : acc'[i]? = some (acc'[i]'(by omega)) := List.getElem?_eq_getElem (by omega)
    obtain ⟨F, q1, q2⟩ := h3 i _ ha' a ha
    exact ⟨_, F, ha', q1, q2⟩

/-- C70 (`fmm`). The same for the solver with one traversal per leaf, whatever the order in which the leaves are treated: the receiver is
then the box of the leaf of `i`, and the expansions are around its center. -/
theorem C70_sgfmm (k : Fin 5) (H : BVHIn A C env big small pos pos P P cnt lo hi) (level : Nat)
    (ht : rebuildFromPositions A C env big small pos cnt lo hi level = .ok t) (m : ℝ) (up : List (List Nat))
    (hup : up.length = karrasTreeDepth w) (old : Nat → (fmmOps k).Mass) (order : List Nat)
    (hord : order.Perm (List.range (t.nodes.length + 1))) (hth : 0 < theta) (G eps : ℝ) (heps : eps ≠ 0)
    (acc : List (V3 ℝ)) (hacc : acc.length = cnt.toNat) :
    ∃ acc', sgfmm (fmmOps k) t (3 * C.bits + 1) up old order pos theta G m eps acc = some acc' ∧ acc'.length = cnt.toNat ∧
      ∀ i < cnt.toNat, ∀ a, acc[i]? = some a → ∃ (leaf : Nat) (b : V3 ℝ × V3 ℝ) (a' : V3 ℝ) (F : Nat → Fin 3 → ℝ),
        acc'[i]? = some a' ∧ t.nodes.length ≤ leaf ∧ i ∈ objsIn t leaf ∧ cellBox t leaf = some b ∧
        (∀ j < cnt.toNat, MMPair t theta (k.val + 1) eps P (center b) (halfSide b) i j (F j)) ∧
        ∀ c, Fmm.ix a' c = Fmm.ix a c + G * m * ((List.range cnt.toNat).map fun j => F j c).sum := by
  unfold rebuildFromPositions at ht
  obtain ⟨T, st, bx, D, K, _⟩ := dttIn_of_build H level ht
  have hb := H.code.1
  have hd := K.depth
  have hl := H.lim
  obtain ⟨moms, e1, _, e3⟩ := treeMoments_ok (m := m) (fmmLaws k) D K H.lower up (by rw [hup]; unfold karrasTreeDepth; omega) old
  have hleaf := fun l (hl' : l ≤ t.nodes.length) => fmmLeaf_ok (G := G) (fmmLaws k) D K H.lower (by omega) e3 heps hth (3 * C.bits + 1)
    (by omega) hl'
  have hfold : ∀ L : List Nat, L.Nodup → (∀ l ∈ L, l ≤ t.nodes.length) → ∀ acc : List (V3 ℝ), acc.length = cnt.toNat →
      ∃ acc', L.foldlM (fmmLeaf (fmmOps k) t (3 * C.bits + 1) pos moms theta G m (eps * eps)) acc = some acc' ∧ acc'.length = cnt.toNat ∧
        (∀ l ∈ L, ∀ i ∈ leafObjs t.sortMap st l, ∀ a, acc[i]? = some a → ∃ (b : V3 ℝ × V3 ℝ) (a' : V3 ℝ) (F : Nat → Fin 3 → ℝ),
          acc'[i]? = some a' ∧ cellBox t (l + t.nodes.length) = some b ∧
          (∀ j < cnt.toNat, MMPair t theta (k.val + 1) eps P (center b) (halfSide b) i j (F j)) ∧
          ∀ c, Fmm.ix a' c = Fmm.ix a c + G * m * ((List.range cnt.toNat).map fun j => F j c).sum) ∧
        ∀ i, (∀ l ∈ L, i ∉ leafObjs t.sortMap st l) → acc'[i]? = acc[i]? := by
    intro L
    induction L with
    | nil => intro _ _ acc ha; exact ⟨acc, rfl, ha, by simp, fun _ _ => rfl⟩
    | cons l L ih =>
      intro hn hle acc ha
      rw [List.nodup_cons] at hn
      obtain ⟨b, F, hb1, hF, hrun⟩ := hleaf l (hle l (by simp))
      obtain ⟨a1, h1, h2⟩ := hrun acc ha
      obtain ⟨a2, h3, h4, h5, h6⟩ := ih hn.2 (fun x hx => hle x (by simp [hx])) a1 (h2.len.trans ha)
      refine ⟨a2, by rw [List.foldlM_cons, h1]; exact h3, h4, ?_, ?_⟩
      · intro x hx i hi v hv
        rcases List.mem_cons.1 hx with rfl | hx
        · obtain ⟨v', q1, q2⟩ := h2.grow i hi v hv
          refine ⟨b, v', F i, ?_, hb1, hF i, q2⟩
          rw [h6 i (fun y hy hiy => hn.1 ?_)]
          · exact q1
          · have := leafObjs_inj K i x y (hle x (by simp)) (hle y (by simp [hy])) hi hiy
            rw [this]; exact hy
        · refine h5 x hx i hi v ?_
          rw [h2.same i (fun hil => hn.1 ?_)]
          · exact hv
          · have := leafObjs_inj K i l x (hle l (by simp)) (hle x (by simp [hx])) hil hi
            rw [this]; exact hx
      · intro i hi
        rw [h6 i (fun y hy => hi y (by simp [hy])), h2.same i (hi l (by simp))]
  have hmem : ∀ l, l ∈ order ↔ l ≤ t.nodes.length := by
    intro l
    rw [hord.mem_iff, List.mem_range]; omega
  obtain ⟨acc', h1, h2, h3, _⟩ := hfold order (hord.nodup_iff.2 List.nodup_range) (fun l hl' => (hmem l).1 hl') acc hacc
  refine ⟨acc', ?_, h2, ?_⟩
  · unfold sgfmm
    simp only [e1, Option.bind_eq_bind, Option.bind_some]
    exact h1
  · intro i hi a ha
    obtain ⟨l, hl1, hl2⟩ := List.mem_flatMap.1 ((all_objs K).mem_iff.2 (List.mem_range.2 hi))
    rw [List.mem_range] at hl1
    obtain ⟨b, a', F, q1, q2, q3, q4⟩ := h3 l ((hmem l).2 (by omega)) i hl2 a ha
    refine ⟨l + t.nodes.length, b, a', F, q1, by omega, ?_, q2, q3, q4⟩
    have hS := whole_subtree_leaf D.whole l (by omega)
    have ho := (objs_ok K hS).2
    rw [cellIdx_leaf] at ho
    rw [ho]
    unfold cellObjs KTree.leaves
    simpa using hl2

/-- The schedule of the upward pass, the order of the leaves and the opening angle 1/2: both solvers run on the three particles of
`sg_in`. -/
example : ∃ (t : BVH ℝ) (a1 a2 : List (V3 ℝ)),
    rebuildFromPositions sgArith mcode32 sgEnv 100 (-100) sgPos 3#32 ⟨0, 0, 0⟩ ⟨8, 8, 8⟩ 0 = .ok t ∧
    sgmm (fmmOps 3) t 31 (List.replicate 32 [1, 0]) (fun _ => (fmmOps 3).zeroM) sgPos 3 (1 / 2) 1 2 (1 / 10)
      [⟨0, 0, 1⟩, ⟨0, 0, 0⟩, ⟨5, 0, 0⟩] = some a1 ∧ a1.length = 3 ∧
    sgfmm (fmmOps 3) t 31 (List.replicate 32 [1, 0]) (fun _ => (fmmOps 3).zeroM) (List.range (t.nodes.length + 1)).reverse sgPos (1 / 2) 1 2
      (1 / 10) [⟨0, 0, 1⟩, ⟨0, 0, 0⟩, ⟨5, 0, 0⟩] = some a2 ∧ a2.length = 3 := by
  obtain ⟨t, T, st, ht, K, _⟩ := rebuild_ok sg_in 0
  obtain ⟨a1, h1, h2, _⟩ := C70_sgmm (theta := 1 / 2) 3 sg_in 0 ht 2 (List.replicate 32 [1, 0]) rfl (fun _ => (fmmOps 3).zeroM) (by norm_num)
    1 (1 / 10) (by norm_num) [⟨0, 0, 1⟩, ⟨0, 0, 0⟩, ⟨5, 0, 0⟩] rfl
  obtain ⟨a2, h3, h4, _⟩ := C70_sgfmm (theta := 1 / 2) 3 sg_in 0 ht 2 (List.replicate 32 [1, 0]) rfl (fun _ => (fmmOps 3).zeroM)
    (List.range (t.nodes.length + 1)).reverse (List.reverse_perm _) (by norm_num) 1 (1 / 10) (by norm_num)
    [⟨0, 0, 1⟩, ⟨0, 0, 0⟩, ⟨5, 0, 0⟩] rfl
  exact ⟨t, a1, a2, ht, h1, h2, h3, h4⟩

/-- A concrete case of `C70_criterion`: a box of half size 1/2 at distance 9 from a point is well separated for the angle 1/2, and opened
for the angle 1/20. -/
example : let t : BVH ℝ := ⟨[], [], [], [⟨9, 0, 0⟩], [⟨10, 1, 1⟩]⟩
    sgOpen t (1 / 2) 0 ⟨1 / 2, 1 / 2, 1 / 2⟩ 0 = false ∧ sgOpen t (1 / 20) 0 ⟨1 / 2, 1 / 2, 1 / 2⟩ 0 = true := by
  intro t
  have hb : cellBox t 0 = some (⟨9, 0, 0⟩, ⟨10, 1, 1⟩) := rfl
  have hc : center ((⟨9, 0, 0⟩ : V3 ℝ), (⟨10, 1, 1⟩ : V3 ℝ)) = ⟨19 / 2, 1 / 2, 1 / 2⟩ := by
    unfold center; norm_num
  have hh : halfSide ((⟨9, 0, 0⟩ : V3 ℝ), (⟨10, 1, 1⟩ : V3 ℝ)) = 1 / 2 := by
    unfold halfSide; norm_num
  have hs : Real.sqrt (((19 : ℝ) / 2 - 1 / 2) ^ 2 + ((1 : ℝ) / 2 - 1 / 2) ^ 2 + ((1 : ℝ) / 2 - 1 / 2) ^ 2) = 9 := by
    rw [show ((19 : ℝ) / 2 - 1 / 2) ^ 2 + ((1 : ℝ) / 2 - 1 / 2) ^ 2 + ((1 : ℝ) / 2 - 1 / 2) ^ 2 = 9 ^ 2 by norm_num]
    exact Real.sqrt_sq (by norm_num)
  constructor
  · rw [C70_criterion (by norm_num) _ _ hb]
    unfold WellSeparated
    rw [hc, hh, hs]
    refine ⟨fun h => ?_, by norm_num⟩
    have := congrArg V3.x h
    norm_num at this
  · rw [← Bool.not_eq_false, C70_criterion (by norm_num) _ _ hb]
    unfold WellSeparated
    rw [hc, hh, hs]
    rintro ⟨_, h⟩
    norm_num at h

/-- Violation for the opening angle 0: a cell whose center is the one of the receiver is then not opened, and the Green function of the
distance 0 is evaluated (division by zero). `fmm` meets this in every patch with a single leaf, whatever the particles. -/
theorem C70_theta_zero_defect (k : Fin 5) (D : Nat) (hD : 0 < D) (hnodes : t.nodes = []) (up : List (List Nat)) (old : Nat → (fmmOps k).Mass)
    (G m eps : ℝ) (acc : List (V3 ℝ)) :
    sgfmm (fmmOps k) t D up old [0] pos 0 G m eps acc = none := by
  unfold sgfmm
  cases treeMoments (fmmOps k) t pos m up old with
  | none => rfl
  | some moms =>
    simp only [Option.bind_eq_bind, Option.bind_some, List.foldlM_cons, List.foldlM_nil]
    have hl : fmmLeaf (fmmOps k) t D pos moms 0 G m (eps * eps) acc 0 = none := by
      unfold fmmLeaf
      rw [hnodes]
      cases hb : cellBox t 0 with
      | none => simp [hb]
      | some b =>
        have hself : boxCenter b - boxCenter b = (⟨0, 0, 0⟩ : V3 ℝ) := by
          show (⟨(boxCenter b).x - (boxCenter b).x, (boxCenter b).y - (boxCenter b).y, (boxCenter b).z - (boxCenter b).z⟩ : V3 ℝ) = _
          rw [sub_self, sub_self, sub_self]
        have hopen : ∀ size, sgOpen t 0 size (boxCenter b) 0 = false := by
          intro size
          unfold sgOpen
          simp only [hb, hself]
          norm_num
        have htr : ∀ size, stackTraversal D ([] : List KNode) (sgOpen t 0 size (boxCenter b)) 0 2 = some [TEvent.excluded 0] := by
          intro size
          unfold stackTraversal
          rw [if_neg (by omega)]
          have h0 : ((List.replicate D 0).set (D - 1) 0)[D - 1]? = some 0 := by
            rw [List.getElem?_set_self (by rw [List.length_replicate]; omega)]
          show (if D - 1 < D then (((List.replicate D 0).set (D - 1) 0)[D - 1]?).bind _ else _) = _
          rw [if_pos (by omega), h0, Option.bind_some, hopen]
          show (if (false : Bool) = true then _ else travLoop D _ _ _ 1 _ (D - 1 + 1) ([] ++ [TEvent.excluded 0])) = _
          rw [if_neg (by simp)]
          show (if D - 1 + 1 < D then _ else some ([] ++ [TEvent.excluded 0])) = _
          rw [if_neg (by omega)]
          rfl
        have hz : lenSq (⟨0, 0, 0⟩ : V3 ℝ) = 0 := by unfold lenSq; norm_num
        simp only [Nat.zero_add, List.length_nil, hb, Option.bind_eq_bind, Option.bind_some, Nat.mul_zero, htr, List.foldlM_cons]
        have hev : fmmEvent (fmmOps k) t pos moms G m (eps * eps) 0 (boxCenter b) ((fmmOps k).zeroG, acc) (.excluded 0) = none := by
          unfold fmmEvent
          have hcc : cellCenter t 0 = some (boxCenter b) := by unfold cellCenter; rw [hb]; rfl
          simp only [hcc, Option.bind_eq_bind, Option.bind_some]
          cases moms[0]? with
          | none => rfl
          | some q => simp only [Option.bind_some, hself, hz, if_true]
        rw [hev]
        rfl
    rw [hl]
    rfl

end

end Shamrock.SelfGrav
