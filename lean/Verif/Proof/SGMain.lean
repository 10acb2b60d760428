import Verif.Proof.SGPairs
import Verif.Model.SelfGravSpec
/-! The self gravity solver: all the passes together. -/
namespace Shamrock.SelfGrav

open Shamrock Shamrock.Fmm

noncomputable section

/-- The operators of each order are correct; `k + 1` terms in the Taylor polynomials. -/
def fmmLawsAt : (k : Fin 5) → FmmLaws (fmmOps k) (k.val + 1) := fmmLaws

theorem boxCenter_eq (b : V3 ℝ × V3 ℝ) : boxCenter b = center b := rfl

theorem ctr_box {t : BVH ℝ} {c : Nat} {b : V3 ℝ × V3 ℝ} (h : cellBox t c = some b) : ctr t c = center b := by
  unfold ctr cellCenter
  rw [h]; rfl

/-- Cells accepted by the criterion have different centers. -/
theorem macStd_centers {theta : ℝ} {a b : V3 ℝ × V3 ℝ} (h : macStd theta a b = true) : center b - center a ≠ ⟨0, 0, 0⟩ := by
  intro he
  unfold macStd at h
  simp only at h
  have hx : (center b).x - (center a).x = 0 := congrArg V3.x he
  have hy : (center b).y - (center a).y = 0 := congrArg V3.y he
  have hz : (center b).z - (center a).z = 0 := congrArg V3.z he
  unfold center at hx hy hz
  simp only at hx hy hz
  rw [if_pos] at h
  · exact absurd h (by simp)
  · show ((a.2.x + a.1.x) / 2 - (b.2.x + b.1.x) / 2) * ((a.2.x + a.1.x) / 2 - (b.2.x + b.1.x) / 2) +
      ((a.2.y + a.1.y) / 2 - (b.2.y + b.1.y) / 2) * ((a.2.y + a.1.y) / 2 - (b.2.y + b.1.y) / 2) +
      ((a.2.z + a.1.z) / 2 - (b.2.z + b.1.z) / 2) * ((a.2.z + a.1.z) / 2 - (b.2.z + b.1.z) / 2) = 0
    have e1 : (a.2.x + a.1.x) / 2 - (b.2.x + b.1.x) / 2 = 0 := by linarith
    have e2 : (a.2.y + a.1.y) / 2 - (b.2.y + b.1.y) / 2 = 0 := by linarith
    have e3 : (a.2.z + a.1.z) / 2 - (b.2.z + b.1.z) / 2 = 0 := by linarith
    rw [e1, e2, e3]; ring

section
variable {w n sb : Nat} {code : Nat → BitVec w} {t : BVH ℝ} {T : KTree} {st : Nat → Nat} {bx : KTree → V3 ℝ × V3 ℝ} {O : FmmOps} {p : Nat}
  {P : Nat → V3 ℝ} {m G eps theta : ℝ} {pos : List (V3 ℝ)} {ref : Inter}

theorem directTerm_eq (xi xj : V3 ℝ) (c : Fin 3) : directTerm G m (eps * eps) xi xj c = G * m * plummer eps xi xj c := by
  unfold directTerm plummer
  have : (xj.x - xi.x) * (xj.x - xi.x) + (xj.y - xi.y) * (xj.y - xi.y) + (xj.z - xi.z) * (xj.z - xi.z) + eps * eps =
      (xj.x - xi.x) ^ 2 + (xj.y - xi.y) ^ 2 + (xj.z - xi.z) ^ 2 + eps ^ 2 := by ring
  rw [this, div_pow, one_pow]
  ring

/-- The contribution of a tagged pair of cells to the force of `j` on `i`. -/
def tagForce (t : BVH ℝ) (P : Nat → V3 ℝ) (p : Nat) (eps : ℝ) (c : Fin 3) (e : Bool × (Nat × Nat)) (i j : Nat) : ℝ :=
  if e.1 then farForce p (ctr t e.2.1) (ctr t e.2.2) (P i) (P j) c else plummer eps (P i) (P j) c

theorem far_sum (ab : Nat × Nat) (i : Nat) (c : Fin 3) : -G * farTerm t P m p (P i) c ab =
    G * m * ((objsIn t ab.2).map (tagForce t P p eps c (true, ab) i)).sum := by
  unfold farTerm
  induction objsIn t ab.2 with
  | nil => simp
  | cons j L ih =>
    rw [List.map_cons, List.map_cons, List.sum_cons, List.sum_cons, mul_add, mul_add, ih]
    congr 1
    show _ = G * m * farForce p (ctr t ab.1) (ctr t ab.2) (P i) (P j) c
    unfold farForce
    ring

theorem near_sum (ab : Nat × Nat) (i : Nat) (c : Fin 3) : nearTerm t P G m (eps * eps) (P i) c ab =
    G * m * ((objsIn t ab.2).map (tagForce t P p eps c (false, ab) i)).sum := by
  unfold nearTerm
  induction objsIn t ab.2 with
  | nil => simp
  | cons j L ih =>
    rw [List.map_cons, List.map_cons, List.sum_cons, List.sum_cons, mul_add, ih, directTerm_eq]
    rfl

theorem sum_scale {α : Type} (a : ℝ) (f g : α → ℝ) (h : ∀ x, f x = a * g x) : ∀ l : List α, (l.map f).sum = a * (l.map g).sum := by
  intro l
  induction l with
  | nil => simp
  | cons x l ih => rw [List.map_cons, List.map_cons, List.sum_cons, List.sum_cons, mul_add, ih, h]

/-- The filtered sums of the two lists, put together. -/
theorem tag_sum (i : Nat) (f : Bool × (Nat × Nat) → ℝ) :
    (((ref.1.map (fun ab => (true, ab)) ++ ref.2.map (fun ab => (false, ab))).filter fun e => decide (i ∈ objsIn t e.2.1)).map f).sum =
      ((ref.1.filter fun ab => decide (i ∈ objsIn t ab.1)).map fun ab => f (true, ab)).sum +
        ((ref.2.filter fun ab => decide (i ∈ objsIn t ab.1)).map fun ab => f (false, ab)).sum := by
  rw [List.filter_append, List.map_append, List.sum_append, List.filter_map, List.filter_map, List.map_map, List.map_map]
  rfl

theorem sgsfmm_core (H : FmmLaws O p) (D : DTTIn t T bx) (K : StructOk n sb code t.sortMap t.redMap t.nodes T st)
    (hpos : ∀ i < n, pos[i]? = some (P i)) (low : Bool) (href : DTTSpec low (macStd theta) t n ref.1 ref.2)
    (hlt : (∀ ab ∈ ref.1, ab.1 < 2 * t.nodes.length + 1 ∧ ab.2 < 2 * t.nodes.length + 1) ∧
      ∀ ab ∈ ref.2, ab.1 < 2 * t.nodes.length + 1 ∧ ab.2 < 2 * t.nodes.length + 1)
    {o : DTTOrdered} (hM : GroupedBy (2 * t.nodes.length + 1) ref.1 o.m2l o.offM2l)
    (hP : GroupedBy (2 * t.nodes.length + 1) ref.2 o.p2p o.offP2p)
    (sortRange : Nat → Nat → List (Nat × Nat) → Option (List (Nat × Nat))) (hsr : SortsRanges pair2Lt sortRange)
    (env : SGEnv O) (hup : T.depth ≤ env.up.length) (hdn : T.depth ≤ env.down.length)
    (hord : env.orderL2P.Perm (List.range (t.nodes.length + 1))) (hsz : (incPairs t).length < 2 ^ 32)
    (h1 : env.invert.ordCount.Perm (List.range (incPairs t).length)) (h2 : env.invert.ordScatter.Perm (List.range (incPairs t).length))
    (h3 : env.invert.ordSeg.Perm (List.range n)) (heps : eps ≠ 0) (acc : List (V3 ℝ)) (hacc : acc.length = n) :
    ∃ (acc' : List (V3 ℝ)) (F : Nat → Nat → Fin 3 → ℝ), sgsfmm O sortRange env t o pos n G m eps acc = some acc' ∧ acc'.length = n ∧
      (∀ i < n, ∀ j < n, FarPair t theta p P ref.1 i j (F i j) ∨ NearPair t eps P ref.2 i j (F i j)) ∧
      ∀ i < n, ∀ a, acc[i]? = some a → ∃ a', acc'[i]? = some a' ∧ ∀ c, Fmm.ix a' c =
        Fmm.ix a c + G * m * ((List.range n).map fun j => F i j c).sum := by
  obtain ⟨moms, e1, _, hmom⟩ := treeMoments_ok (m := m) H D K hpos env.up hup env.old
  have hfar : FarOk t T ref.1 := by
    intro ab hab
    refine ⟨(whole_cells D.whole _).1 (hlt.1 ab hab).2, ?_⟩
    obtain ⟨ba, bb, x1, x2, x3⟩ := href.accepted ab hab
    rw [ctr_box x1, ctr_box x2]
    exact macStd_centers x3
  haveI : Nonempty O.Grav := ⟨O.zeroG⟩
  obtain ⟨own, e2, e2l, hown⟩ := mapM_range_exists (m2lCell O t moms o.m2l o.offM2l) (fun cell d => ∀ x c, evG O d (x - ctr t cell) c =
      ((ref.1.filter fun ab => decide (ab.1 = cell)).map (farTerm t P m p x c)).sum) (2 * t.nodes.length + 1) (by
    intro cell hcell
    obtain ⟨S, hS, rfl⟩ := (whole_cells D.whole cell).1 hcell
    exact m2lCell_ok H D K hmom hM hfar hS)
  obtain ⟨grav, e3, e3l, hgrav⟩ := gravDown_ok H D env.down hdn own e2l
  obtain ⟨acc1, e4, e4l, hl2p⟩ := l2p_ok (G := G) D K hpos grav e3l env.orderL2P hord acc (le_of_eq hacc.symm)
  have hincN : ∀ ic ∈ incPairs t, ic.1 < n := by
    rintro ⟨i, c⟩ hic
    obtain ⟨q1, q2⟩ := inc_mem.1 hic
    exact objsIn_lt K q1 q2
  obtain ⟨inv, ioffs, e5, GI, _⟩ := reorderScan_ok sortRange hsr env.invert n (incPairs t) hincN hsz h1 h2 h3
  have e5' : invertList sortRange env.invert t n = some (inv, ioffs) := by
    unfold invertList
    rw [incidences_ok K]
    exact e5
  have hep : 0 < eps * eps := mul_self_pos.2 heps
  have hper : ∀ i < n, ∀ a, acc[i]? = some a → ∃ a', p2pPart t pos G m (eps * eps) o.p2p o.offP2p (inv, ioffs) acc1 i = some a' ∧
      ∀ c, Fmm.ix a' c = Fmm.ix a c + -G * ((ref.1.filter fun ab => decide (i ∈ objsIn t ab.1)).map (farTerm t P m p (P i) c)).sum +
        ((ref.2.filter fun ab => decide (i ∈ objsIn t ab.1)).map (nearTerm t P G m (eps * eps) (P i) c)).sum := by
    intro i hi a ha
    obtain ⟨k, hk, hik⟩ := List.mem_flatMap.1 ((all_objs K).mem_iff.2 (List.mem_range.2 hi))
    rw [List.mem_range] at hk
    have hg1 := hl2p k (by omega) i hik
    rw [ha] at hg1
    obtain ⟨a', q1, q2⟩ := p2pPart_ok (G := G) (m := m) hep K hpos hP hlt.2 GI hi hg1
    refine ⟨a', q1, ?_⟩
    intro c
    rw [q2 c, ix_axpy]
    congr 2
    have hleaf : KTree.leaf k ∈ T.subtrees := (leaves_subtrees T k).2 (by rw [whole_leaves D.whole]; exact List.mem_range.2 hk)
    obtain ⟨v, path, v1, v2, v3, v4⟩ := hgrav (KTree.leaf k) hleaf
    have hci : cellIdx t.nodes.length (KTree.leaf k).ref = k + t.nodes.length := by
      rfl
    rw [hci] at v1 v4
    rw [v1]
    have hv := v4 (P i) c
    show -G * evG O v (P i - ctr t (k + t.nodes.length)) c = _
    rw [hv]
    congr 1
    obtain ⟨hpn, hpm⟩ := path_cells D K (by omega : k ≤ t.nodes.length) hik v2 v3
    rw [← sum_group (farTerm t P m p (P i) c) (pathCells t path) hpn (fun d => i ∈ objsIn t d) ref.1
      (fun ab hab => hpm ab.1 (hlt.1 ab hab).1)]
    unfold pathCells
    rw [List.map_map]
    congr 1
    apply List.map_congr_left
    intro A hA
    have hlA : cellIdx t.nodes.length A.ref < own.length := by
      rw [e2l]; exact idx_lt D.whole ((v3 A).1 hA).1
    have hoA : own[cellIdx t.nodes.length A.ref]? = some own[cellIdx t.nodes.length A.ref] := List.getElem?_eq_getElem hlA
    have := hown _ _ hoA (P i) c
    show evG O (own[cellIdx t.nodes.length A.ref]?.getD O.zeroG) _ c = _
    rw [hoA]
    exact this
  haveI : Nonempty (V3 ℝ) := ⟨⟨0, 0, 0⟩⟩
  obtain ⟨acc', e6, e6l, hacc'⟩ := mapM_range_exists (p2pPart t pos G m (eps * eps) o.p2p o.offP2p (inv, ioffs) acc1) (fun i a' =>
      ∀ a, acc[i]? = some a → ∀ c, Fmm.ix a' c = Fmm.ix a c +
        -G * ((ref.1.filter fun ab => decide (i ∈ objsIn t ab.1)).map (farTerm t P m p (P i) c)).sum +
        ((ref.2.filter fun ab => decide (i ∈ objsIn t ab.1)).map (nearTerm t P G m (eps * eps) (P i) c)).sum) n (by
    intro i hi
    have hl : i < acc.length := by omega
    obtain ⟨a', q1, q2⟩ := hper i hi _ (List.getElem?_eq_getElem hl)
    refine ⟨a', q1, ?_⟩
    intro a ha
    rw [List.getElem?_eq_getElem hl, Option.some.injEq] at ha
    rw [← ha]; exact q2)
  obtain ⟨W, hW1, hW2⟩ := pair_sum (E := Bool × (Nat × Nat)) (fun e => objsIn t e.2.1) (fun e => objsIn t e.2.2)
    (ref.1.map (fun ab => (true, ab)) ++ ref.2.map (fun ab => (false, ab))) n (by
      intro e he
      rcases List.mem_append.1 he with h | h <;> obtain ⟨ab, hab, rfl⟩ := List.mem_map.1 h
      · exact objsIn_nodup K (hlt.1 ab hab).1
      · exact objsIn_nodup K (hlt.2 ab hab).1) (by
      have := href.cover
      rw [List.flatMap_append] at this
      rw [List.flatMap_append, List.flatMap_map, List.flatMap_map]
      exact this)
  refine ⟨acc', fun i j c => tagForce t P p eps c (W i j) i j, ?_, e6l, ?_, ?_⟩
  · unfold sgsfmm
    rw [e1]
    simp only [Option.bind_eq_bind, Option.bind_some, e2, e3, e4, e5']
    exact e6
  · intro i hi j hj
    obtain ⟨w1, w2, w3⟩ := hW1 i hi j hj
    show FarPair t theta p P ref.1 i j (fun c => tagForce t P p eps c (W i j) i j) ∨
      NearPair t eps P ref.2 i j (fun c => tagForce t P p eps c (W i j) i j)
    rcases List.mem_append.1 w1 with h | h <;> obtain ⟨ab, hab, he⟩ := List.mem_map.1 h <;> rw [← he] at w2 w3 ⊢
    · refine Or.inl ⟨ab, hab, w2, w3, ?_⟩
      obtain ⟨ba, bb, x1, x2, x3⟩ := href.accepted ab hab
      refine ⟨ba, bb, x1, x2, x3, ?_⟩
      intro c
      rw [← ctr_box x1, ← ctr_box x2]
      rfl
    · exact Or.inr ⟨ab, hab, w2, w3, fun c => rfl⟩
  · intro i hi a ha
    have hl : i < acc'.length := by omega
    refine ⟨acc'[i], List.getElem?_eq_getElem hl, ?_⟩
    intro c
    rw [hacc' i _ (List.getElem?_eq_getElem hl) a ha c, ← hW2 (tagForce t P p eps c) i hi, tag_sum, add_assoc, mul_add]
    congr 2
    · have : ∀ L : List (Nat × Nat), -G * (L.map (farTerm t P m p (P i) c)).sum =
          G * m * (L.map fun ab => ((objsIn t ab.2).map (tagForce t P p eps c (true, ab) i)).sum).sum := by
        intro L
        rw [← sum_scale (-G) (fun ab => -G * farTerm t P m p (P i) c ab) _ (fun _ => rfl)]
        exact sum_scale (G * m) _ _ (fun ab => far_sum (eps := eps) ab i c) L
      exact this _
    · exact sum_scale (G * m) _ _ (fun ab => near_sum (p := p) ab i c) _

end

end

end Shamrock.SelfGrav
