import Verif.Proof.SGFar
/-! Evaluation of the expansions at the particles, direct interactions. -/
namespace Shamrock.SelfGrav

open Shamrock Shamrock.Fmm

/-- Updates of distinct entries, one after the other. -/
theorem foldlM_upd {ι α : Type} (key : ι → Nat) (f : ι → α → α) : ∀ (L : List ι) (acc : List α), (L.map key).Nodup →
    (∀ x ∈ L, key x < acc.length) →
    ∃ acc', L.foldlM (fun acc x => (acc[key x]?).bind fun a => wr acc (key x) (f x a)) acc = some acc' ∧ acc'.length = acc.length ∧
      (∀ x ∈ L, acc'[key x]? = (acc[key x]?).map (f x)) ∧ ∀ j, j ∉ L.map key → acc'[j]? = acc[j]? := by
  intro L
  induction L with
  | nil => intro acc _ _; exact ⟨acc, rfl, rfl, by simp, by simp⟩
  | cons x L ih =>
    intro acc hn hlt
    rw [List.map_cons, List.nodup_cons] at hn
    have hx := hlt x (by simp)
    obtain ⟨acc', h1, h2, h3, h4⟩ := ih (acc.set (key x) (f x acc[key x])) hn.2 (by
      intro y hy; rw [List.length_set]; exact hlt y (by simp [hy]))
    refine ⟨acc', ?_, by rw [h2, List.length_set], ?_, ?_⟩
    · rw [List.foldlM_cons, List.getElem?_eq_getElem hx, Option.bind_some]
      unfold wr
      rw [if_pos hx]
      exact h1
    · intro y hy
      rcases List.mem_cons.1 hy with rfl | hy
      · rw [h4 _ hn.1, List.getElem?_set_self hx, List.getElem?_eq_getElem hx]; rfl
      · rw [h3 y hy, List.getElem?_set_ne]
        intro he
        exact hn.1 (List.mem_map.2 ⟨y, hy, he.symm⟩)
    · intro j hj
      rw [List.map_cons, List.mem_cons, not_or] at hj
      rw [h4 j hj.2, List.getElem?_set_ne (Ne.symm hj.1)]

theorem foldlM_nested {α β γ : Type} (g : α → List β) (h : γ → β → Option γ) : ∀ (l : List α) (c : γ),
    l.foldlM (fun c a => (g a).foldlM h c) c = (l.flatMap g).foldlM h c := by
  intro l
  induction l with
  | nil => intro c; rfl
  | cons a l ih =>
    intro c
    rw [List.foldlM_cons, List.flatMap_cons, List.foldlM_append]
    rcases (g a).foldlM h c with _ | c'
    · rfl
    · exact ih c'

theorem foldlM_congr {α β : Type} (f g : β → α → Option β) : ∀ (l : List α) (b : β), (∀ a ∈ l, ∀ b, f b a = g b a) → l.foldlM f b = l.foldlM g b := by
  intro l
  induction l with
  | nil => intro b _; rfl
  | cons a l ih =>
    intro b h
    rw [List.foldlM_cons, List.foldlM_cons, h a (by simp)]
    rcases g b a with _ | b'
    · rfl
    · exact ih b' fun x hx => h x (by simp [hx])

noncomputable section

section
variable {w n sb : Nat} {code : Nat → BitVec w} {t : BVH ℝ} {T : KTree} {st : Nat → Nat} {bx : KTree → V3 ℝ × V3 ℝ} {O : FmmOps} {p : Nat}
  {pos : List (V3 ℝ)} {P : Nat → V3 ℝ} {m G eps2 : ℝ} {ref out : List (Nat × Nat)} {offs : List W32}

theorem ix_axpy (a : V3 ℝ) (s : ℝ) (v : V3 ℝ) (c : Fin 3) : Fmm.ix (axpy a s v) c = Fmm.ix a c + s * Fmm.ix v c := by
  fin_cases c <;> rfl

/-- L2P: each particle gets `-G` times the expansion of its leaf at its position, whatever the order of the leaves. -/
theorem l2p_ok (D : DTTIn t T bx) (K : StructOk n sb code t.sortMap t.redMap t.nodes T st) (hpos : ∀ i < n, pos[i]? = some (P i))
    (grav : List O.Grav) (hg : grav.length = 2 * t.nodes.length + 1) (order : List Nat) (hord : order.Perm (List.range (t.nodes.length + 1)))
    (acc : List (V3 ℝ)) (hacc : n ≤ acc.length) :
    ∃ acc', l2p O t pos G grav order acc = some acc' ∧ acc'.length = acc.length ∧ ∀ k ≤ t.nodes.length, ∀ i ∈ leafObjs t.sortMap st k,
      acc'[i]? = (acc[i]?).map fun a => axpy a (-G) (O.contract (O.fromVec (P i - ctr t (k + t.nodes.length)))
        (grav[k + t.nodes.length]?.getD O.zeroG)) := by
  have hperm : (order.flatMap (leafObjs t.sortMap st)).Perm (List.range n) := (hord.flatMap_right _).trans (all_objs K)
  have hkeys : ((order.flatMap fun k => (leafObjs t.sortMap st k).map fun i => (k, i)).map (·.2)) = order.flatMap (leafObjs t.sortMap st) := by
    rw [List.map_flatMap]
    apply flatMap_congr'
    intro k _
    simp [Function.comp_def]
  have hle : ∀ k ∈ order, k ≤ t.nodes.length := fun k hk => by
    have := hord.mem_iff.1 hk
    rw [List.mem_range] at this; omega
  obtain ⟨acc', h1, h2, h3, _⟩ := foldlM_upd (fun ki : Nat × Nat => ki.2)
    (fun ki a => axpy a (-G) (O.contract (O.fromVec (P ki.2 - ctr t (ki.1 + t.nodes.length))) (grav[ki.1 + t.nodes.length]?.getD O.zeroG)))
    (order.flatMap fun k => (leafObjs t.sortMap st k).map fun i => (k, i)) acc
    (by
      show ((order.flatMap fun k => (leafObjs t.sortMap st k).map fun i => (k, i)).map (·.2)).Nodup
      rw [hkeys]; exact hperm.nodup_iff.2 List.nodup_range)
    (by
      intro x hx
      obtain ⟨k, hk, hx⟩ := List.mem_flatMap.1 hx
      obtain ⟨i, hi, rfl⟩ := List.mem_map.1 hx
      have := leaf_lt K (hle k hk) hi
      show i < acc.length
      omega)
  refine ⟨acc', ?_, h2, ?_⟩
  · rw [← h1, ← foldlM_nested]
    unfold l2p
    apply foldlM_congr
    intro k hk b
    have hkl := hle k hk
    have hS := whole_subtree_leaf D.whole k hkl
    have hidx : cellIdx t.nodes.length (KTree.leaf k).ref = k + t.nodes.length := by simp [KTree.ref, cellIdx]
    have hc := center_ok D hS
    rw [hidx] at hc
    unfold l2pLeaf
    have hgk : grav[k + t.nodes.length]? = some (grav[k + t.nodes.length]?.getD O.zeroG) := by
      rw [List.getElem?_eq_getElem (by omega)]; rfl
    rw [hgk]
    simp only [hc, forEachInLeaf_ok K k hkl, Option.bind_eq_bind, Option.bind_some, List.foldlM_map, Option.getD_some]
    apply foldlM_congr
    intro i hi b
    unfold l2pOne
    simp only [hpos i (leaf_lt K hkl hi), Option.bind_eq_bind, Option.bind_some]
  · intro k hk i hi
    have := h3 (k, i) (List.mem_flatMap.2 ⟨k, hord.mem_iff.2 (List.mem_range.2 (by omega)), List.mem_map.2 ⟨i, hi, rfl⟩⟩)
    exact this

/-! ### The inverse list -/

theorem objs_nodup (K : StructOk n sb code t.sortMap t.redMap t.nodes T st) {S : KTree} (hS : S ∈ T.subtrees) :
    (cellObjs t.sortMap st S).Nodup := by
  have h1 : (T.leaves.flatMap (leafObjs t.sortMap st)).Nodup := by
    rw [whole_leaves K.whole]
    exact (all_objs K).nodup_iff.2 List.nodup_range
  have hsub : ∀ (T S : KTree), S ∈ T.subtrees → S.leaves.Sublist T.leaves := by
    intro T
    induction T with
    | leaf k => intro S h; simp only [KTree.subtrees, List.mem_singleton] at h; subst h; exact List.Sublist.refl _
    | node i l r ihl ihr =>
      intro S h
      simp only [KTree.subtrees, List.mem_cons, List.mem_append] at h
      rcases h with rfl | h | h
      · exact List.Sublist.refl _
      · exact (ihl S h).trans (List.sublist_append_left _ _)
      · exact (ihr S h).trans (List.sublist_append_right _ _)
  have h2 := hsub T S hS
  rw [List.nodup_flatMap] at h1
  unfold cellObjs
  rw [List.nodup_flatMap]
  exact ⟨fun k hk => h1.1 k (h2.subset hk), h1.2.sublist h2⟩

theorem objsIn_nodup (K : StructOk n sb code t.sortMap t.redMap t.nodes T st) {c : Nat} (hc : c < 2 * t.nodes.length + 1) : (objsIn t c).Nodup := by
  obtain ⟨S, hS, rfl⟩ := (whole_cells K.whole c).1 hc
  rw [(objs_ok K hS).2]
  exact objs_nodup K hS

/-- The pairs (particle, cell that contains it). -/
def incPairs (t : BVH ℝ) : List (Nat × Nat) := (List.range (2 * t.nodes.length + 1)).flatMap fun c => (objsIn t c).map fun i => (i, c)

theorem incidences_ok (K : StructOk n sb code t.sortMap t.redMap t.nodes T st) : incidences t = some (incPairs t) := by
  unfold incidences incPairs
  have : (List.range (2 * t.nodes.length + 1)).mapM (fun c => (forEachInCell t.sortMap t.redMap t.nodes c).map (List.map fun i => (i, c))) =
      some ((List.range (2 * t.nodes.length + 1)).map fun c => (objsIn t c).map fun i => (i, c)) := by
    apply Sph.mapM_total
    intro c hc
    obtain ⟨S, hS, rfl⟩ := (whole_cells K.whole c).1 (List.mem_range.1 hc)
    rw [(objs_ok K hS).1, (objs_ok K hS).2]; rfl
  rw [this]
  rfl

theorem inc_mem {i c : Nat} : (i, c) ∈ incPairs t ↔ c < 2 * t.nodes.length + 1 ∧ i ∈ objsIn t c := by
  unfold incPairs
  rw [List.mem_flatMap]
  constructor
  · rintro ⟨c', hc', h⟩
    obtain ⟨i', hi', he⟩ := List.mem_map.1 h
    rw [Prod.mk.injEq] at he
    obtain ⟨rfl, rfl⟩ := he
    exact ⟨List.mem_range.1 hc', hi'⟩
  · rintro ⟨h1, h2⟩
    exact ⟨c, List.mem_range.2 h1, List.mem_map.2 ⟨i, h2, rfl⟩⟩

theorem inc_nodup (K : StructOk n sb code t.sortMap t.redMap t.nodes T st) : (incPairs t).Nodup := by
  unfold incPairs
  rw [List.nodup_flatMap]
  constructor
  · intro c hc
    exact (objsIn_nodup K (List.mem_range.1 hc)).map fun a b h => (Prod.mk.inj h).1
  · refine List.nodup_range.imp ?_
    intro a b hab x hx hy
    obtain ⟨i, _, rfl⟩ := List.mem_map.1 hx
    obtain ⟨j, _, he⟩ := List.mem_map.1 hy
    exact hab (Prod.mk.inj he).2.symm

theorem objsIn_lt (K : StructOk n sb code t.sortMap t.redMap t.nodes T st) {c i : Nat} (hc : c < 2 * t.nodes.length + 1) (h : i ∈ objsIn t c) : i < n := by
  obtain ⟨S, hS, rfl⟩ := (whole_cells K.whole c).1 hc
  rw [(objs_ok K hS).2] at h
  exact cellObj_lt K hS h

theorem inc_length (K : StructOk n sb code t.sortMap t.redMap t.nodes T st) : (incPairs t).length ≤ n * (T.depth + 1) := by
  have h1 : (incPairs t).length = (T.subtrees.map fun S => (cellObjs t.sortMap st S).length).sum := by
    have hp : (T.subtrees.map fun S : KTree => cellIdx t.nodes.length S.ref).Perm (List.range (2 * t.nodes.length + 1)) := by
      refine (List.perm_ext_iff_of_nodup (whole_cells_nodup K.whole) List.nodup_range).2 ?_
      intro c
      rw [List.mem_range, whole_cells K.whole c]
      exact List.mem_map
    unfold incPairs
    rw [List.length_flatMap, ← (hp.map _).sum_eq, List.map_map]
    congr 1
    apply List.map_congr_left
    intro S hS
    simp only [Function.comp, List.length_map, (objs_ok K hS).2]
  have h2 : ∀ S : KTree, (S.subtrees.map fun R => (cellObjs t.sortMap st R).length).sum ≤ (cellObjs t.sortMap st S).length * (S.depth + 1) := by
    intro S
    induction S with
    | leaf k => simp [KTree.subtrees, KTree.depth]
    | node i l r ihl ihr =>
      have ho : (cellObjs t.sortMap st (KTree.node i l r)).length = (cellObjs t.sortMap st l).length + (cellObjs t.sortMap st r).length := by
        simp [cellObjs, KTree.leaves]
      simp only [KTree.subtrees, List.map_cons, List.map_append, List.sum_cons, List.sum_append, KTree.depth]
      rw [ho]
      have a1 := Nat.mul_le_mul_left (cellObjs t.sortMap st l).length (show l.depth + 1 ≤ max l.depth r.depth + 1 by omega)
      have a2 := Nat.mul_le_mul_left (cellObjs t.sortMap st r).length (show r.depth + 1 ≤ max l.depth r.depth + 1 by omega)
      calc _ ≤ (cellObjs t.sortMap st l).length + (cellObjs t.sortMap st r).length +
            ((cellObjs t.sortMap st l).length * (max l.depth r.depth + 1) + (cellObjs t.sortMap st r).length * (max l.depth r.depth + 1)) := by
              omega
        _ = _ := by ring
  have h3 : (cellObjs t.sortMap st T).length = n := by
    unfold cellObjs
    rw [whole_leaves K.whole, (all_objs K).length_eq, List.length_range]
  rw [h1]
  have := h2 T
  rwa [h3] at this

/-! ### Direct interactions -/

/-- The force per unit of mass of a particle of mass `m` at `xj` on a particle at `xi`, softened. -/
def directTerm (G m eps2 : ℝ) (xi xj : V3 ℝ) (c : Fin 3) : ℝ :=
  G * m * (1 / Real.sqrt ((xj.x - xi.x) * (xj.x - xi.x) + (xj.y - xi.y) * (xj.y - xi.y) + (xj.z - xi.z) * (xj.z - xi.z) + eps2)) ^ 3 *
    (Fmm.ix xj c - Fmm.ix xi c)

/-- What the pair of cells `ab` contributes to a particle at `x` of its first cell. -/
def nearTerm (t : BVH ℝ) (P : Nat → V3 ℝ) (G m eps2 : ℝ) (x : V3 ℝ) (c : Fin 3) (ab : Nat × Nat) : ℝ :=
  ((objsIn t ab.2).map fun j => directTerm G m eps2 x (P j) c).sum

theorem p2pOne_ok (he : 0 < eps2) (hpos : ∀ i < n, pos[i]? = some (P i)) (x f : V3 ℝ) {j : Nat} (hj : j < n) :
    ∃ f', p2pOne pos G m eps2 x f j = some f' ∧ ∀ c, Fmm.ix f' c = Fmm.ix f c + directTerm G m eps2 x (P j) c := by
  have hne : (P j - x).x * (P j - x).x + (P j - x).y * (P j - x).y + (P j - x).z * (P j - x).z + eps2 ≠ 0 := by
    have h1 := mul_self_nonneg (P j - x).x
    have h2 := mul_self_nonneg (P j - x).y
    have h3 := mul_self_nonneg (P j - x).z
    linarith
  unfold p2pOne
  rw [hpos j hj]
  refine ⟨_, if_neg hne, ?_⟩
  intro c
  rw [ix_axpy]
  unfold directTerm
  have hs : Fmm.ix (P j - x) c = Fmm.ix (P j) c - Fmm.ix x c := by fin_cases c <;> rfl
  rw [hs]
  congr 2
  show G * m * (1 / Real.sqrt ((P j - x).x * (P j - x).x + (P j - x).y * (P j - x).y + (P j - x).z * (P j - x).z + eps2)) * _ * _ = _
  have e : (P j - x).x = (P j).x - x.x ∧ (P j - x).y = (P j).y - x.y ∧ (P j - x).z = (P j).z - x.z := ⟨rfl, rfl, rfl⟩
  rw [e.1, e.2.1, e.2.2]
  ring

theorem p2pCell_ok (he : 0 < eps2) (K : StructOk n sb code t.sortMap t.redMap t.nodes T st) (hpos : ∀ i < n, pos[i]? = some (P i))
    (GB : GroupedBy (2 * t.nodes.length + 1) ref out offs) (hr : ∀ ab ∈ ref, ab.2 < 2 * t.nodes.length + 1) (x : V3 ℝ) {g : Nat}
    (hg : g < 2 * t.nodes.length + 1) (f : V3 ℝ) :
    ∃ s e : W32, offs[g]? = some s ∧ offs[g + 1]? = some e ∧
      ∃ f', (List.range' s.toNat (e.toNat - s.toNat)).foldlM (p2pInter t pos G m eps2 out x g) f = some f' ∧
        ∀ c, Fmm.ix f' c = Fmm.ix f c + ((ref.filter fun ab => decide (ab.1 = g)).map (nearTerm t P G m eps2 x c)).sum := by
  obtain ⟨s, e, h1, h2, h3, h4, h5⟩ := GB.slice g hg
  refine ⟨s, e, h1, h2, ?_⟩
  have hin : ∀ ab ∈ seg out s.toNat e.toNat, ab ∈ ref ∧ ab.1 = g := by
    intro ab hab
    have := (h5.mem_iff).1 hab
    simpa using this
  obtain ⟨f', hf, hv⟩ := foldlM_sums (ι := Fin 3)
    (fun (f : V3 ℝ) (ab : Nat × Nat) => if ab.1 = g then (forEachInCell t.sortMap t.redMap t.nodes ab.2).bind fun ids =>
      ids.foldlM (p2pOne pos G m eps2 x) f else none)
    (fun c f => Fmm.ix f c) (fun c ab => nearTerm t P G m eps2 x c ab) (seg out s.toNat e.toNat) f (by
      intro ab hab f
      obtain ⟨hab1, hab2⟩ := hin ab hab
      have hlt := hr ab hab1
      obtain ⟨B, hB, hBi⟩ := (whole_cells K.whole ab.2).1 hlt
      have ho := objs_ok K hB
      rw [hBi] at ho
      obtain ⟨f', q1, q2⟩ := foldlM_sums (ι := Fin 3) (p2pOne pos G m eps2 x) (fun c f => Fmm.ix f c) (fun c j => directTerm G m eps2 x (P j) c)
        (objsIn t ab.2) f (fun j hj f => p2pOne_ok he hpos x f (objsIn_lt K hlt hj))
      refine ⟨f', ?_, q2⟩
      rw [if_pos hab2, ho.1, Option.bind_some, ← ho.2]
      exact q1)
  refine ⟨f', ?_, ?_⟩
  · have hee : e.toNat = s.toNat + (e.toNat - s.toNat) := by omega
    rw [foldlM_range' out _ (fun (f : V3 ℝ) (ab : Nat × Nat) => if ab.1 = g then (forEachInCell t.sortMap t.redMap t.nodes ab.2).bind fun ids =>
      ids.foldlM (p2pOne pos G m eps2 x) f else none) (by
        intro d i ab hi
        unfold p2pInter
        simp only [hi, Option.bind_eq_bind, Option.bind_some]) _ _ _ (by omega), ← hee]
    exact hf
  · intro c
    rw [hv c, (h5.map _).sum_eq]

/-- P2P: each particle gets the direct force of the second cells of the pairs whose first cell contains it. -/
theorem p2pPart_ok (he : 0 < eps2) (K : StructOk n sb code t.sortMap t.redMap t.nodes T st) (hpos : ∀ i < n, pos[i]? = some (P i))
    (GB : GroupedBy (2 * t.nodes.length + 1) ref out offs) (hr : ∀ ab ∈ ref, ab.1 < 2 * t.nodes.length + 1 ∧ ab.2 < 2 * t.nodes.length + 1)
    {inv : List (Nat × Nat)} {ioffs : List W32} (GI : GroupedBy n (incPairs t) inv ioffs) {acc : List (V3 ℝ)} {i : Nat} (hi : i < n)
    {a : V3 ℝ} (ha : acc[i]? = some a) :
    ∃ a', p2pPart t pos G m eps2 out offs (inv, ioffs) acc i = some a' ∧ ∀ c, Fmm.ix a' c = Fmm.ix a c +
      ((ref.filter fun ab => decide (i ∈ objsIn t ab.1)).map (nearTerm t P G m eps2 (P i) c)).sum := by
  obtain ⟨s, e, h1, h2, h3, h4, h5⟩ := GI.slice i hi
  have hin : ∀ ic ∈ seg inv s.toNat e.toNat, ic.1 = i ∧ ic.2 < 2 * t.nodes.length + 1 ∧ i ∈ objsIn t ic.2 := by
    intro ic hic
    have := (h5.mem_iff).1 hic
    rw [List.mem_filter, decide_eq_true_eq] at this
    obtain ⟨q1, q2⟩ := this
    subst q2
    have := inc_mem.1 (show (ic.1, ic.2) ∈ incPairs t from q1)
    exact ⟨rfl, this⟩
  obtain ⟨f, hf, hv⟩ := foldlM_sums (ι := Fin 3)
    (fun (f : V3 ℝ) (ic : Nat × Nat) => (offs[ic.2]?).bind fun a => (offs[ic.2 + 1]?).bind fun e =>
      (List.range' a.toNat (e.toNat - a.toNat)).foldlM (p2pInter t pos G m eps2 out (P i) ic.2) f)
    (fun c f => Fmm.ix f c)
    (fun c ic => ((ref.filter fun ab => decide (ab.1 = ic.2)).map (nearTerm t P G m eps2 (P i) c)).sum) (seg inv s.toNat e.toNat) ⟨0, 0, 0⟩ (by
      intro ic hic f
      obtain ⟨q1, q2, q3⟩ := hin ic hic
      obtain ⟨s', e', x1, x2, f', x3, x4⟩ := p2pCell_ok (G := G) (m := m) (eps2 := eps2) he K hpos GB (fun ab h => (hr ab h).2) (P i) q2 f
      refine ⟨f', ?_, x4⟩
      rw [x1, x2]
      exact x3)
  have hfold : (List.range' s.toNat (e.toNat - s.toNat)).foldlM (p2pCell t pos G m eps2 out offs (P i) inv) ⟨0, 0, 0⟩ = some f := by
    have hee : e.toNat = s.toNat + (e.toNat - s.toNat) := by omega
    rw [foldlM_range' inv _ (fun (f : V3 ℝ) (ic : Nat × Nat) => (offs[ic.2]?).bind fun a => (offs[ic.2 + 1]?).bind fun e =>
      (List.range' a.toNat (e.toNat - a.toNat)).foldlM (p2pInter t pos G m eps2 out (P i) ic.2) f) (by
        intro d k ic hk
        unfold p2pCell
        simp only [hk, Option.bind_eq_bind, Option.bind_some]) _ _ _ (by omega), ← hee]
    exact hf
  refine ⟨axpy a 1 f, ?_, ?_⟩
  · unfold p2pPart
    simp only [hpos i hi, h1, h2, hfold, ha, Option.bind_eq_bind, Option.bind_some, Option.pure_def]
  · intro c
    have h0 : Fmm.ix (⟨0, 0, 0⟩ : V3 ℝ) c = 0 := by fin_cases c <;> rfl
    rw [ix_axpy, one_mul, hv c, h0, zero_add]
    congr 1
    have hperm := h5.map (fun ic : Nat × Nat => ic.2)
    have hnd : (((incPairs t).filter fun ic => decide (ic.1 = i)).map (·.2)).Nodup := by
      refine List.Nodup.map_on ?_ ((inc_nodup K).filter _)
      intro x hx y hy hxy
      have hx' := (List.mem_filter.1 hx).2
      have hy' := (List.mem_filter.1 hy).2
      simp only [decide_eq_true_eq] at hx' hy'
      exact Prod.ext (hx'.trans hy'.symm) hxy
    have hs := sum_group (nearTerm t P G m eps2 (P i) c) ((seg inv s.toNat e.toNat).map (·.2)) (hperm.nodup_iff.2 hnd)
      (fun d => i ∈ objsIn t d) ref (by
        intro ab hab
        constructor
        · intro h
          obtain ⟨ic, hic, he⟩ := List.mem_map.1 h
          rw [← he]
          exact (hin ic hic).2.2
        · intro h
          refine hperm.mem_iff.2 ?_
          exact List.mem_map.2 ⟨(i, ab.1), List.mem_filter.2 ⟨inc_mem.2 ⟨(hr ab hab).1, h⟩, by simp⟩, rfl⟩)
    rw [← hs, List.map_map]
    rfl

end

end

end Shamrock.SelfGrav
