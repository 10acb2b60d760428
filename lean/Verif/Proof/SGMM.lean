import Verif.Proof.SGVisit
/-! The traversals of `SGMMPlummer` and `SGFMMPlummer`. -/
namespace Shamrock.SelfGrav

open Shamrock Shamrock.Fmm

noncomputable section

section
variable {w n sb : Nat} {code : Nat → BitVec w} {t : BVH ℝ} {T : KTree} {st : Nat → Nat} {bx : KTree → V3 ℝ × V3 ℝ} {O : FmmOps} {p : Nat}
  {P : Nat → V3 ℝ} {m G eps theta : ℝ} {pos : List (V3 ℝ)} {moms : List O.Mass}

/-- The force of `j` on `i` as the traversal of a receiver centered at `s` computes it, when `j` is reported by the event `e`. -/
def evForce (t : BVH ℝ) (P : Nat → V3 ℝ) (p : Nat) (eps : ℝ) (s x : V3 ℝ) (c : Fin 3) (j : Nat) : TEvent → ℝ
  | .found _ => plummer eps x (P j) c
  | .excluded id => farForce p s (ctr t id) x (P j) c

theorem m2p_ok (H : FmmLaws O p) (hc : ∀ D Q i, Fmm.ix (O.contract (O.fromVec ⟨0, 0, 0⟩) (O.getG D Q)) i = Fmm.ix (O.contract Q D) i)
    {q : O.Mass} {src : Sources} {sB x : V3 ℝ} (hq : H.isM q src sB) (hr : sB - x ≠ ⟨0, 0, 0⟩) (i : Fin 3) :
    Fmm.ix (O.contract q (O.green (sB - x))) i =
      (src.map fun q => q.1 * taylorSum (fun s => gravField (along (sB - x) ((q.2 - sB) - (x - x)) s) i) p).sum := by
  rw [← hc, ← H.ev_force hq x x hr i]
  have : x - x = (⟨0, 0, 0⟩ : V3 ℝ) := by
    show (⟨x.x - x.x, x.y - x.y, x.z - x.z⟩ : V3 ℝ) = _
    rw [sub_self, sub_self, sub_self]
  rw [this]

theorem mmDirect_ok (he : eps ≠ 0) (hpos : ∀ i < n, pos[i]? = some (P i)) (x f : V3 ℝ) {j : Nat} (hj : j < n) :
    ∃ f', mmDirect pos m (eps * eps) x f j = some f' ∧ ∀ c, Fmm.ix f' c = Fmm.ix f c + m * plummer eps x (P j) c := by
  have hne : lenSq (P j - x) + eps * eps ≠ 0 := by
    have h1 := mul_self_nonneg (P j - x).x
    have h2 := mul_self_nonneg (P j - x).y
    have h3 := mul_self_nonneg (P j - x).z
    have h4 := mul_self_pos.2 he
    unfold lenSq
    linarith
  unfold mmDirect
  rw [hpos j hj]
  refine ⟨_, if_neg hne, ?_⟩
  intro c
  rw [ix_axpy]
  congr 1
  have hs : Fmm.ix (P j - x) c = Fmm.ix (P j) c - Fmm.ix x c := by fin_cases c <;> rfl
  have := directTerm_eq (G := 1) (m := m) (eps := eps) x (P j) c
  rw [one_mul] at this
  rw [← this, hs]
  unfold directTerm
  rw [one_mul]
  congr 1
  have e : lenSq (P j - x) = ((P j).x - x.x) * ((P j).x - x.x) + ((P j).y - x.y) * ((P j).y - x.y) + ((P j).z - x.z) * ((P j).z - x.z) := rfl
  rw [← e]
  show m * (1 / Real.sqrt (lenSq (P j - x) + eps * eps)) * (1 / Real.sqrt (lenSq (P j - x) + eps * eps)) *
    (1 / Real.sqrt (lenSq (P j - x) + eps * eps)) = _
  ring

theorem sub_leaf {off k : Nat} (hk : k + off < 2 ^ 32) : u32sub (k + off) off = k := by
  unfold u32sub
  rw [show k + off + 2 ^ 32 - off = k + 2 ^ 32 by omega, Nat.add_mod_right, Nat.mod_eq_of_lt (by omega)]

theorem excl_sum (t : BVH ℝ) (P : Nat → V3 ℝ) (m : ℝ) (p : Nat) (s x : V3 ℝ) (c : Fin 3) (id : Nat) : ∀ L : List Nat,
    ((massesOf P m L).map fun q : ℝ × V3 ℝ => q.1 * taylorSum (fun u => gravField (along (ctr t id - s) ((q.2 - ctr t id) - (x - s)) u) c) p).sum =
      -(m * (L.map fun j => farForce p s (ctr t id) x (P j) c).sum) := by
  intro L
  unfold massesOf
  induction L with
  | nil => simp
  | cons j L ih =>
    rw [List.map_cons, List.map_cons, List.map_cons, List.sum_cons, List.sum_cons, ih]
    unfold farForce
    ring

theorem mmEvent_ok (H : FmmLaws O p) (hc : ∀ D Q i, Fmm.ix (O.contract (O.fromVec ⟨0, 0, 0⟩) (O.getG D Q)) i = Fmm.ix (O.contract Q D) i)
    (D : DTTIn t T bx) (K : StructOk n sb code t.sortMap t.redMap t.nodes T st) (hpos : ∀ i < n, pos[i]? = some (P i)) (hn : 2 * n < 2 ^ 32)
    (hm : ∀ S ∈ T.subtrees, ∃ q, moms[cellIdx t.nodes.length S.ref]? = some q ∧
      H.isM q (massesOf P m (cellObjs t.sortMap st S)) (ctr t (cellIdx t.nodes.length S.ref))) (he : eps ≠ 0) (hth : 0 < theta) (x : V3 ℝ)
    {e : TEvent} (hev : e ∈ T.visit t.nodes.length (sgOpen t theta 0 x)) (f : V3 ℝ) :
    ∃ f', mmEvent O t pos moms m (eps * eps) x f e = some f' ∧
      ∀ c, Fmm.ix f' c = Fmm.ix f c + m * ((objsIn t e.id).map fun j => evForce t P p eps x x c j e).sum := by
  rcases visit_mem _ _ T (self_mem_subtrees T) e hev with ⟨k, hk, rfl, _⟩ | ⟨R, hR, rfl, hcond⟩
  · have hlt := idx_lt D.whole hk
    rw [cellIdx_leaf] at hlt
    have hkn : k ≤ t.nodes.length := by omega
    have hcl := K.cells
    have ho := objs_ok K hk
    rw [cellIdx_leaf] at ho
    have hlo : cellObjs t.sortMap st (KTree.leaf k) = leafObjs t.sortMap st k := by
      unfold cellObjs KTree.leaves; simp
    obtain ⟨f', q1, q2⟩ := foldlM_sums (ι := Fin 3) (mmDirect pos m (eps * eps) x) (fun c f => Fmm.ix f c)
      (fun c j => m * plummer eps x (P j) c) (leafObjs t.sortMap st k) f (fun j hj f => mmDirect_ok he hpos x f (leaf_lt K hkn hj))
    refine ⟨f', ?_, ?_⟩
    · unfold mmEvent
      simp only [sub_leaf (show k + t.nodes.length < 2 ^ 32 by omega), forEachInLeaf_ok K k hkn, Option.bind_eq_bind, Option.bind_some]
      exact q1
    · intro c
      rw [q2 c]
      congr 1
      show _ = m * ((objsIn t (k + t.nodes.length)).map fun j => plummer eps x (P j) c).sum
      rw [ho.2, hlo]
      exact sum_scale m _ _ (fun _ => rfl) _
  · obtain ⟨q, q1, q2⟩ := hm R hR
    have hne := open_far hth (D.box R hR) hcond
    refine ⟨axpy f (-1) (O.contract q (O.green (ctr t (cellIdx t.nodes.length R.ref) - x))), ?_, ?_⟩
    · unfold mmEvent
      simp only [center_ok D hR, q1, Option.bind_eq_bind, Option.bind_some]
      rw [if_neg hne]; rfl
    · intro c
      rw [ix_axpy, m2p_ok H hc q2 (lenSq_ne hne) c, excl_sum]
      show _ = Fmm.ix f c + m * ((objsIn t (cellIdx t.nodes.length R.ref)).map fun j => farForce p x _ x (P j) c).sum
      rw [(objs_ok K hR).2]
      ring

theorem mmPair_ok (D : DTTIn t T bx) (hth : 0 < theta) (s : V3 ℝ) (size : ℝ) (i j : Nat) {e : TEvent}
    (hev : e ∈ T.visit t.nodes.length (sgOpen t theta size s)) (hj : j ∈ objsIn t e.id) :
    MMPair t theta p eps P s size i j (fun c => evForce t P p eps s (P i) c j e) := by
  rcases visit_mem _ _ T (self_mem_subtrees T) e hev with ⟨k, hk, rfl, hcond⟩ | ⟨R, hR, rfl, hcond⟩
  · have hb := D.box _ hk
    rw [cellIdx_leaf] at hb
    refine ⟨k + t.nodes.length, _, hb, hj, Or.inr ⟨by omega, ?_, fun c => rfl⟩⟩
    rw [← sgOpen_iff hth size s hb, hcond]
    simp
  · refine ⟨_, _, D.box R hR, hj, Or.inl ⟨(sgOpen_iff hth size s (D.box R hR)).1 hcond, ?_⟩⟩
    intro c
    rw [← ctr_box (D.box R hR)]
    rfl

theorem visit_perm (K : StructOk n sb code t.sortMap t.redMap t.nodes T st) (D : DTTIn t T bx) (cond : Nat → Bool) :
    ((T.visit t.nodes.length cond).flatMap fun e => objsIn t e.id).Perm (List.range n) := by
  rw [visit_objs K cond T (self_mem_subtrees T)]
  unfold cellObjs
  rw [whole_leaves D.whole]
  exact all_objs K

instance : Nonempty TEvent := ⟨.found 0⟩

/-- One particle of `SGMMPlummer`. -/
theorem mmPart_ok (H : FmmLaws O p) (hc : ∀ D Q i, Fmm.ix (O.contract (O.fromVec ⟨0, 0, 0⟩) (O.getG D Q)) i = Fmm.ix (O.contract Q D) i)
    (D : DTTIn t T bx) (K : StructOk n sb code t.sortMap t.redMap t.nodes T st) (hpos : ∀ i < n, pos[i]? = some (P i)) (hn : 2 * n < 2 ^ 32)
    (hm : ∀ S ∈ T.subtrees, ∃ q, moms[cellIdx t.nodes.length S.ref]? = some q ∧
      H.isM q (massesOf P m (cellObjs t.sortMap st S)) (ctr t (cellIdx t.nodes.length S.ref))) (he : eps ≠ 0) (hth : 0 < theta)
    (Dst : Nat) (hD : T.depth + 1 ≤ Dst) (acc : List (V3 ℝ)) {i : Nat} (hi : i < n) {a : V3 ℝ} (ha : acc[i]? = some a) :
    ∃ (a' : V3 ℝ) (F : Nat → Fin 3 → ℝ), mmPart O t Dst pos moms theta G m (eps * eps) acc i = some a' ∧
      (∀ j < n, MMPair t theta p eps P (P i) 0 i j (F j)) ∧
      ∀ c, Fmm.ix a' c = Fmm.ix a c + G * m * ((List.range n).map fun j => F j c).sum := by
  obtain ⟨W, hW1, hW2⟩ := row_sum (fun e : TEvent => objsIn t e.id) (T.visit t.nodes.length (sgOpen t theta 0 (P i))) n (visit_perm K D _)
  obtain ⟨f', q1, q2⟩ := foldlM_sums (ι := Fin 3) (mmEvent O t pos moms m (eps * eps) (P i)) (fun c f => Fmm.ix f c)
    (fun c e => m * ((objsIn t e.id).map fun j => evForce t P p eps (P i) (P i) c j e).sum)
    (T.visit t.nodes.length (sgOpen t theta 0 (P i))) ⟨0, 0, 0⟩ (fun e hev f => mmEvent_ok H hc D K hpos hn hm he hth (P i) hev f)
  refine ⟨axpy a G f', fun j c => evForce t P p eps (P i) (P i) c j (W j), ?_, ?_, ?_⟩
  · unfold mmPart
    simp only [hpos i hi, whole_traversal D.whole Dst hD, q1, ha, Option.bind_eq_bind, Option.bind_some, Option.pure_def]
  · intro j hj
    exact mmPair_ok D hth (P i) 0 i j (hW1 j hj).1 (hW1 j hj).2
  · intro c
    have h0 : Fmm.ix (⟨0, 0, 0⟩ : V3 ℝ) c = 0 := by fin_cases c <;> rfl
    rw [ix_axpy, q2 c, h0, zero_add, sum_scale m _ (fun e : TEvent => ((objsIn t e.id).map fun j => evForce t P p eps (P i) (P i) c j e).sum)
      (fun _ => rfl), hW2 (fun e j => evForce t P p eps (P i) (P i) c j e)]
    ring

end

end

end Shamrock.SelfGrav
