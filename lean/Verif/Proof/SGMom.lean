import Verif.Proof.TreeUp
import Verif.Proof.TreeFlow
import Verif.Proof.FmmLaws
import Verif.Props.DTT
import Verif.Proof.SphSinkForce
/-! The upward pass of the moments on a built tree. -/
namespace Shamrock.SelfGrav

open Shamrock Shamrock.Fmm

noncomputable section

/-- The center of a cell. -/
def ctr (t : BVH ℝ) (c : Nat) : V3 ℝ := (cellCenter t c).getD ⟨0, 0, 0⟩

/-- The particles of mass `m` of a list. -/
def massesOf (P : Nat → V3 ℝ) (m : ℝ) (ids : List Nat) : Sources := ids.map fun i => (m, P i)

section
variable {w n sb : Nat} {code : Nat → BitVec w} {t : BVH ℝ} {T : KTree} {st : Nat → Nat} {bx : KTree → V3 ℝ × V3 ℝ} {O : FmmOps} {p : Nat}
  {pos : List (V3 ℝ)} {P : Nat → V3 ℝ} {m : ℝ}

theorem center_ok (D : DTTIn t T bx) {S : KTree} (hS : S ∈ T.subtrees) :
    cellCenter t (cellIdx t.nodes.length S.ref) = some (ctr t (cellIdx t.nodes.length S.ref)) := by
  unfold ctr cellCenter
  rw [D.box S hS]; rfl

theorem objs_ok (K : StructOk n sb code t.sortMap t.redMap t.nodes T st) {S : KTree} (hS : S ∈ T.subtrees) :
    forEachInCell t.sortMap t.redMap t.nodes (cellIdx t.nodes.length S.ref) = some (cellObjs t.sortMap st S) ∧
    objsIn t (cellIdx t.nodes.length S.ref) = cellObjs t.sortMap st S := by
  have := forEachInCell_ok K S hS
  refine ⟨this, ?_⟩
  unfold objsIn
  rw [this]; rfl

theorem leaf_lt (K : StructOk n sb code t.sortMap t.redMap t.nodes T st) {k i : Nat} (hk : k ≤ t.nodes.length)
    (h : i ∈ leafObjs t.sortMap st k) : i < n := by
  have := (all_objs K).mem_iff (a := i)
  rw [List.mem_range] at this
  exact this.1 (List.mem_flatMap.2 ⟨k, List.mem_range.2 (by omega), h⟩)

theorem cellObj_lt (K : StructOk n sb code t.sortMap t.redMap t.nodes T st) {S : KTree} (hS : S ∈ T.subtrees) {i : Nat}
    (h : i ∈ cellObjs t.sortMap st S) : i < n := by
  obtain ⟨k, hk, hi⟩ := List.mem_flatMap.1 h
  exact leaf_lt K (subtree_leaf_le K S hS k hk) hi

/-- The combination of the moments of the two children of a cell. -/
def combMom (O : FmmOps) (t : BVH ℝ) (gid : Nat) (ql qr : O.Mass) : O.Mass :=
  match t.nodes[gid]? with
  | none => O.zeroM
  | some nd => O.addM (O.addM O.zeroM (O.offsetM ql (ctr t (leftChild t.nodes.length nd)) (ctr t gid)))
      (O.offsetM qr (ctr t (rightChild t.nodes.length nd)) (ctr t gid))

theorem momItem_eq (D : DTTIn t T bx) : momItem O t = propItemAt (combMom O t) t.nodes := by
  funext gid
  unfold momItem propItemAt propItem
  by_cases h : gid < t.nodes.length
  · obtain ⟨l, r, hlr⟩ := (internals_subtrees T gid).1 ((whole_ints D.whole).mem_iff.2 (List.mem_range.2 h))
    obtain ⟨nd, e1, e2, e3⟩ := whole_children D.whole hlr
    have hg := center_ok D hlr
    rw [node_idx] at hg
    have hc : combMom O t gid = fun ql qr => O.addM (O.addM O.zeroM (O.offsetM ql (ctr t (leftChild t.nodes.length nd)) (ctr t gid)))
        (O.offsetM qr (ctr t (rightChild t.nodes.length nd)) (ctr t gid)) := by
      funext ql qr
      unfold combMom
      rw [e1]
    simp only [e1, e2, e3, center_ok D (kid_mem hlr).1, center_ok D (kid_mem hlr).2, hg, hc]
  · rw [List.getElem?_eq_none (by omega)]

theorem momUp_eq (D : DTTIn t T bx) : ∀ (scheds : List (List Nat)) (b : List O.Mass), momUp O t scheds b = upAt (combMom O t) t.nodes scheds b := by
  intro scheds
  induction scheds with
  | nil => intro b; rfl
  | cons s r ih =>
    intro b
    unfold momUp upAt
    rw [momItem_eq D]
    congr 1
    funext x
    exact ih x

theorem comb_moments (H : FmmLaws O p) (D : DTTIn t T bx) (K : StructOk n sb code t.sortMap t.redMap t.nodes T st)
    (leafv : Nat → O.Mass) (hleaf : ∀ k ≤ t.nodes.length, H.isM (leafv k) (massesOf P m (leafObjs t.sortMap st k)) (ctr t (k + t.nodes.length))) :
    ∀ S ∈ T.subtrees, H.isM (S.valueAt (combMom O t) leafv) (massesOf P m (cellObjs t.sortMap st S)) (ctr t (cellIdx t.nodes.length S.ref)) := by
  intro S
  induction S with
  | leaf k =>
    intro hS
    have hk := subtree_leaf_le K _ hS k (by simp [KTree.leaves])
    have hidx : cellIdx t.nodes.length (KTree.leaf k).ref = k + t.nodes.length := by simp [KTree.ref, cellIdx]
    rw [hidx]
    have : cellObjs t.sortMap st (KTree.leaf k) = leafObjs t.sortMap st k := by simp [cellObjs, KTree.leaves]
    rw [this]
    exact hleaf k hk
  | node i l r ihl ihr =>
    intro hS
    obtain ⟨nd, e1, e2, e3⟩ := whole_children D.whole hS
    have hl := H.shift (t := ctr t i) (ihl (kid_mem hS).1)
    have hr := H.shift (t := ctr t i) (ihr (kid_mem hS).2)
    have := H.add (H.add (H.zero _) hl) hr
    rw [node_idx]
    have e : (KTree.node i l r).valueAt (combMom O t) leafv = combMom O t i (l.valueAt (combMom O t) leafv) (r.valueAt (combMom O t) leafv) := rfl
    rw [e]
    unfold combMom at this ⊢
    simp only [e1, e2, e3]
    have ho : cellObjs t.sortMap st (KTree.node i l r) = cellObjs t.sortMap st l ++ cellObjs t.sortMap st r := by
      simp [cellObjs, KTree.leaves]
    rw [ho]
    unfold massesOf at this ⊢
    rw [List.map_append]
    exact this

theorem leafMoments_ok (D : DTTIn t T bx) (K : StructOk n sb code t.sortMap t.redMap t.nodes T st)
    (hpos : ∀ i < n, pos[i]? = some (P i)) (k : Nat) (hk : k ≤ t.nodes.length) :
    leafMomentsOf O t pos m k = some (O.leafM ((leafObjs t.sortMap st k).map P) (ctr t (k + t.nodes.length)) m) := by
  have hS := whole_subtree_leaf D.whole k hk
  have hidx : cellIdx t.nodes.length (KTree.leaf k).ref = k + t.nodes.length := by simp [KTree.ref, cellIdx]
  have hc := center_ok D hS
  rw [hidx] at hc
  have hx : (leafObjs t.sortMap st k).mapM (fun i => pos[i]?) = some ((leafObjs t.sortMap st k).map P) :=
    Sph.mapM_total _ _ _ fun i hi => hpos i (leaf_lt K hk hi)
  unfold leafMomentsOf
  simp only [forEachInLeaf_ok K k hk, hx, hc, Option.bind_eq_bind, Option.bind_some, Option.pure_def]

/-- Every cell gets the moments of all its particles about its center, whatever the schedules of the launches. -/
theorem treeMoments_ok (H : FmmLaws O p) (D : DTTIn t T bx) (K : StructOk n sb code t.sortMap t.redMap t.nodes T st)
    (hpos : ∀ i < n, pos[i]? = some (P i)) (scheds : List (List Nat)) (hd : T.depth ≤ scheds.length) (old : Nat → O.Mass) :
    ∃ moms, treeMoments O t pos m scheds old = some moms ∧ moms.length = 2 * t.nodes.length + 1 ∧ ∀ S ∈ T.subtrees, ∃ q,
      moms[cellIdx t.nodes.length S.ref]? = some q ∧ H.isM q (massesOf P m (cellObjs t.sortMap st S)) (ctr t (cellIdx t.nodes.length S.ref)) := by
  have hl : (List.range (t.nodes.length + 1)).mapM (leafMomentsOf O t pos m) =
      some ((List.range (t.nodes.length + 1)).map fun k => O.leafM ((leafObjs t.sortMap st k).map P) (ctr t (k + t.nodes.length)) m) :=
    Sph.mapM_total _ _ _ fun k hk => leafMoments_ok D K hpos k (by rw [List.mem_range] at hk; omega)
  have hlv : ∀ k ≤ t.nodes.length, H.isM (O.leafM ((leafObjs t.sortMap st k).map P) (ctr t (k + t.nodes.length)) m)
      (massesOf P m (leafObjs t.sortMap st k)) (ctr t (k + t.nodes.length)) := by
    intro k _
    have := H.leaf ((leafObjs t.sortMap st k).map P) (ctr t (k + t.nodes.length)) m
    rw [List.map_map] at this
    exact this
  have hval := comb_moments (p := p) H D K (fun k => O.leafM ((leafObjs t.sortMap st k).map P) (ctr t (k + t.nodes.length)) m) hlv
  unfold treeMoments
  rw [hl]
  simp only [Option.bind_eq_bind, Option.bind_some]
  by_cases h0 : t.nodes.length = 0
  · rw [if_pos h0]
    refine ⟨_, rfl, by simp [h0], ?_⟩
    intro S hS
    refine ⟨_, ?_, hval S hS⟩
    have hi := (whole_ints D.whole).length_eq
    rw [h0] at hi
    have hlv' := whole_leaves D.whole
    rw [h0] at hlv'
    cases T with
    | node i l r => simp [KTree.internals] at hi
    | leaf j =>
      obtain rfl : j = 0 := by simpa [KTree.leaves] using hlv'
      simp only [KTree.subtrees, List.mem_singleton] at hS
      subst hS
      have hidx : cellIdx t.nodes.length (KTree.leaf 0).ref = 0 := by simp [KTree.ref, cellIdx, h0]
      rw [hidx]
      simp [h0, KTree.valueAt]
  · rw [if_neg h0, momUp_eq D]
    rcases D.whole with W | ⟨hn, _⟩
    · have hup : GUpTo (combMom O t) (fun k => O.leafM ((leafObjs t.sortMap st k).map P) (ctr t (k + t.nodes.length)) m) t.nodes T 0
          ((List.range t.nodes.length).map old ++
            (List.range (t.nodes.length + 1)).map fun k => O.leafM ((leafObjs t.sortMap st k).map P) (ctr t (k + t.nodes.length)) m) := by
        refine ⟨by simp only [List.length_append, List.length_map, List.length_range]; omega, ?_⟩
        intro S hS hdS
        cases S with
        | node i l r => simp only [KTree.depth] at hdS; omega
        | leaf k =>
          have hk := subtree_leaf_le K _ hS k (by simp [KTree.leaves])
          have hidx : cellIdx t.nodes.length (KTree.leaf k).ref = k + t.nodes.length := by simp [KTree.ref, cellIdx]
          rw [hidx, List.getElem?_append_right (by simp), List.length_map, List.length_range, Nat.add_sub_cancel, List.getElem?_map,
            List.getElem?_range (by omega)]
          rfl
      obtain ⟨b, h1, h2⟩ := propagate_upAt W scheds 0 _ hup
      refine ⟨b, h1, h2.1, ?_⟩
      intro S hS
      have := subtrees_depth T S hS
      exact ⟨_, h2.2 S hS (by omega), hval S hS⟩
    · exact absurd (by rw [hn]; rfl) h0

end

end

end Shamrock.SelfGrav
