import Verif.Proof.FvMesh
/-! Conservation: the outflows cancel two by two. -/
namespace Shamrock.Fv
open Amr

/-! ### Specification -/

/-- The flux seen from one side of the faces between cells is the opposite of the one seen from the other. -/
def Antisym (F : Nat → PState → PState → CState) (gamma dtI dx : ℚ) (bs : List Box) (u : List CellIn) : Prop :=
  ∀ dir < 6, ∀ c < bs.length * 8, ∀ d < bs.length * 8, Faces dir (cellD bs c) (cellD bs d) →
    F (opp dir) (faceStates gamma dtI dx bs u c d).2 (faceStates gamma dtI dx bs u c d).1 =
      (F dir (faceStates gamma dtI dx bs u c d).1 (faceStates gamma dtI dx bs u c d).2).neg

def negV (a : V3 Int) : V3 Int := ⟨-a.x, -a.y, -a.z⟩

/-- Patches `0` to `m - 1` on a periodic domain: the first `n p` cells of patch `p` are its own, the others images. Cell `d` of patch `p` is cell `src p d` of
some patch moved by `sh p d`; it has the same values if it touches a cell of the patch; and wherever cell `c` of patch `p` touches an image moved by `s` of a
cell of patch `p'`, patch `p'` has the image of `c` moved by `-s` (the other side of the same face). -/
structure Patchwork (m : Nat) (bs : Nat → List Box) (u : Nat → List CellIn) (n : Nat → Nat) (src : Nat → Nat → Nat × Nat) (sh : Nat → Nat → V3 Int) : Prop where
  lt : ∀ p < m, ∀ d < (bs p).length * 8, (src p d).1 < m ∧ (src p d).2 < n (src p d).1
  box : ∀ p < m, ∀ d < (bs p).length * 8, cellD (bs p) d = shiftBox (cellD (bs (src p d).1) (src p d).2) (sh p d)
  val : ∀ p < m, ∀ d < (bs p).length * 8, (∃ dir < 6, ∃ c < n p, Faces dir (cellD (bs p) c) (cellD (bs p) d)) →
    (u p).getD d cell0 = (u (src p d).1).getD (src p d).2 cell0
  full : ∀ p < m, ∀ dir < 6, ∀ c < n p, ∀ d < (bs p).length * 8, Faces dir (cellD (bs p) c) (cellD (bs p) d) →
    ∃ c' < (bs (src p d).1).length * 8, src (src p d).1 c' = (p, c) ∧ sh (src p d).1 c' = negV (sh p d)

/-! ### Proofs -/

theorem meet_comm (a b : FBox) : meet a b = meet b a := by
  unfold meet
  simp only [max_comm, min_comm]

theorem faceStates_swap (gamma dtI dx : ℚ) (bs : List Box) (u : List CellIn) (c d : Nat) :
    faceStates gamma dtI dx bs u d c = ((faceStates gamma dtI dx bs u c d).2, (faceStates gamma dtI dx bs u c d).1) := by
  unfold faceStates
  dsimp only
  rw [meet_comm]

theorem common_comm (l h l' h' : Int) : common l' h' l h = common l h l' h' := by
  unfold common; rw [min_comm, max_comm]

theorem opp_lt {dir : Nat} (h : dir < 6) : opp dir < 6 := by
  interval_cases dir <;> decide

theorem faceArea_opp (dx : ℚ) {dir : Nat} (h : dir < 6) (A B : Box) : faceArea dx (opp dir) B A = faceArea dx dir A B := by
  unfold faceArea
  interval_cases dir <;> simp only [opp, Nat.reduceLT, ↓reduceIte, common_comm]

theorem outflow_opp {F : Nat → PState → PState → CState} {gamma dtI dx : ℚ} {bs : List Box} {u : List CellIn} (ha : Antisym F gamma dtI dx bs u) {dir c d : Nat}
    (h : dir < 6) (hc : c < bs.length * 8) (hd : d < bs.length * 8) (hf : Faces dir (cellD bs c) (cellD bs d)) (i : Fin 5) :
    outflow F gamma dtI dx bs u i (opp dir) d c = -outflow F gamma dtI dx bs u i dir c d := by
  unfold outflow
  rw [faceStates_swap, faceArea_opp dx h]
  dsimp only
  rw [ha dir h c hc d hd hf, q_neg]
  ring

theorem sum_opp (f : Nat → ℚ) (h : ∀ dir < 6, f (opp dir) = -f dir) : ∑ dir ∈ Finset.range 6, f dir = 0 := by
  simp only [Finset.sum_range_succ, Finset.sum_range_zero]
  have h0 := h 0 (by omega)
  have h2 := h 2 (by omega)
  have h4 := h 4 (by omega)
  simp only [opp] at h0 h2 h4
  rw [h0, h2, h4]
  ring

/-- The outflows between the first `n` cells cancel. -/
theorem inner_zero {F : Nat → PState → PState → CState} {gamma dtI dx : ℚ} {bs : List Box} {u : List CellIn} (ha : Antisym F gamma dtI dx bs u) (n : Nat)
    (hn : n ≤ bs.length * 8) (i : Fin 5) :
    ∑ dir ∈ Finset.range 6, ∑ c ∈ Finset.range n, ∑ d ∈ Finset.range n,
      (if Faces dir (cellD bs c) (cellD bs d) then outflow F gamma dtI dx bs u i dir c d else 0) = 0 := by
  apply sum_opp
  intro dir hdir
  rw [Finset.sum_comm, ← Finset.sum_neg_distrib]
  apply Finset.sum_congr rfl
  intro c hc
  rw [← Finset.sum_neg_distrib]
  apply Finset.sum_congr rfl
  intro d hd
  rw [Finset.mem_range] at hc hd
  by_cases hf : Faces dir (cellD bs c) (cellD bs d)
  · rw [if_pos hf, if_pos ((faces_opp dir _ _).2 hf), outflow_opp ha hdir (by omega) (by omega) hf]
  · rw [if_neg hf, if_neg (fun h => hf ((faces_opp dir _ _).1 h)), neg_zero]

/-- What leaves the patch is what goes to the cells outside. -/
theorem balance {F : Nat → PState → PState → CState} {gamma dtI dx : ℚ} {bs : List Box} {u : List CellIn} (ha : Antisym F gamma dtI dx bs u) (n : Nat)
    (hn : n ≤ bs.length * 8) (i : Fin 5) :
    ∑ c ∈ Finset.range n, ∑ dir ∈ Finset.range 6, ∑ d ∈ Finset.range (bs.length * 8),
        (if Faces dir (cellD bs c) (cellD bs d) then outflow F gamma dtI dx bs u i dir c d else 0) =
      ∑ c ∈ Finset.range n, ∑ dir ∈ Finset.range 6, ∑ d ∈ Finset.Ico n (bs.length * 8),
        (if Faces dir (cellD bs c) (cellD bs d) then outflow F gamma dtI dx bs u i dir c d else 0) := by
  have h := inner_zero ha n hn i
  rw [Finset.sum_comm] at h
  have : ∀ c dir, ∑ d ∈ Finset.range (bs.length * 8), (if Faces dir (cellD bs c) (cellD bs d) then outflow F gamma dtI dx bs u i dir c d else 0) =
      ∑ d ∈ Finset.range n, (if Faces dir (cellD bs c) (cellD bs d) then outflow F gamma dtI dx bs u i dir c d else 0) +
      ∑ d ∈ Finset.Ico n (bs.length * 8), (if Faces dir (cellD bs c) (cellD bs d) then outflow F gamma dtI dx bs u i dir c d else 0) :=
    fun c dir => (Finset.sum_range_add_sum_Ico _ hn).symm
  simp only [this, Finset.sum_add_distrib]
  rw [h, zero_add]

/-! Translations -/

theorem faces_shift (dir : Nat) (A B : Box) (s : V3 Int) : Faces dir (shiftBox A s) (shiftBox B s) ↔ Faces dir A B := by
  rcases dir with _ | _ | _ | _ | _ | dir <;> simp only [Faces, shiftBox, Overlap, ← max_add, ← min_add, max_add_add_right, min_add_add_right, add_left_inj, add_lt_add_iff_right]

theorem common_shift (l h l' h' s : Int) : common (l + s) (h + s) (l' + s) (h' + s) = common l h l' h' := by
  unfold common; rw [max_add_add_right, min_add_add_right]; ring

theorem area_shift (dx : ℚ) (dir : Nat) (A B : Box) (s : V3 Int) : faceArea dx dir (shiftBox A s) (shiftBox B s) = faceArea dx dir A B := by
  unfold faceArea shiftBox
  simp only [common_shift]

def shiftF (dx : ℚ) (b : FBox) (s : V3 Int) : FBox :=
  ⟨⟨b.lo.x + s.x * dx, b.lo.y + s.y * dx, b.lo.z + s.z * dx⟩, ⟨b.hi.x + s.x * dx, b.hi.y + s.y * dx, b.hi.z + s.z * dx⟩⟩

theorem scale_shift (dx : ℚ) (A : Box) (s : V3 Int) : scale dx (shiftBox A s) = shiftF dx (scale dx A) s := by
  unfold scale shiftBox shiftF
  simp only [FBox.mk.injEq, V3.mk.injEq]
  push_cast
  refine ⟨⟨?_, ?_, ?_⟩, ?_, ?_, ?_⟩ <;> ring

theorem meet_shift (dx : ℚ) (a b : FBox) (s : V3 Int) : meet (shiftF dx a s) (shiftF dx b s) = shiftF dx (meet a b) s := by
  unfold meet shiftF
  simp only [max_add_add_right, min_add_add_right]

theorem shiftTo_shift (dx : ℚ) (f a : FBox) (s : V3 Int) : shiftTo (shiftF dx f s) (shiftF dx a s) = shiftTo f a := by
  unfold shiftTo center shiftF
  simp only [V3.mk.injEq]
  refine ⟨?_, ?_, ?_⟩ <;> ring

theorem shift_back {A B : Box} {s : V3 Int} (h : A = shiftBox B s) : B = shiftBox A (negV s) := by
  subst h
  obtain ⟨⟨a, b, c⟩, d, e, f⟩ := B
  simp [shiftBox, negV]

theorem shift_zero (B : Box) : shiftBox B ⟨0, 0, 0⟩ = B := by
  obtain ⟨⟨a, b, c⟩, d, e, f⟩ := B
  simp [shiftBox]

/-- The face between `c` and `d`, seen from the other patch. -/
theorem outflow_image {F : Nat → PState → PState → CState} {gamma dtI dx : ℚ} {m : Nat} {bs : Nat → List Box} {u : Nat → List CellIn} {n : Nat → Nat}
    (ha : ∀ p < m, Antisym F gamma dtI dx (bs p) (u p)) (hn : ∀ p < m, n p ≤ (bs p).length * 8) {src : Nat → Nat → Nat × Nat} {sh : Nat → Nat → V3 Int}
    (P : Patchwork m bs u n src sh) {p dir c d c' : Nat} (hp : p < m)
    (h : dir < 6) (hc : c < n p) (hd : d < (bs p).length * 8) (hc' : c' < (bs (src p d).1).length * 8) (e1 : src (src p d).1 c' = (p, c))
    (e2 : sh (src p d).1 c' = negV (sh p d)) (hf : Faces dir (cellD (bs p) c) (cellD (bs p) d)) :
    Faces (opp dir) (cellD (bs (src p d).1) (src p d).2) (cellD (bs (src p d).1) c') ∧
      ∀ i, outflow F gamma dtI dx (bs (src p d).1) (u (src p d).1) i (opp dir) (src p d).2 c' = -outflow F gamma dtI dx (bs p) (u p) i dir c d := by
  have hq := P.lt p hp d hd
  have hn' := hn p hp
  have b1 : cellD (bs (src p d).1) (src p d).2 = shiftBox (cellD (bs p) d) (negV (sh p d)) := shift_back (P.box p hp d hd)
  have b2 : cellD (bs (src p d).1) c' = shiftBox (cellD (bs p) c) (negV (sh p d)) := by rw [P.box _ hq.1 c' hc', e1, e2]
  have hf' : Faces (opp dir) (cellD (bs (src p d).1) (src p d).2) (cellD (bs (src p d).1) c') := by rw [b1, b2, faces_shift]; exact (faces_opp dir _ _).2 hf
  have v1 := P.val p hp d hd ⟨dir, h, c, hc, hf⟩
  have v2 := P.val _ hq.1 c' hc' ⟨opp dir, opp_lt h, _, hq.2, hf'⟩
  rw [e1] at v2
  have hst : faceStates gamma dtI dx (bs (src p d).1) (u (src p d).1) (src p d).2 c' = faceStates gamma dtI dx (bs p) (u p) d c := by
    unfold faceStates
    dsimp only
    rw [b1, b2, scale_shift, scale_shift, meet_shift, shiftTo_shift, shiftTo_shift, v1, v2]
  refine ⟨hf', fun i => ?_⟩
  rw [← outflow_opp (ha p hp) h (by omega) hd hf i]
  unfold outflow
  rw [hst, b1, b2, area_shift]

theorem cell_unique {bs : List Box} (hw : ∀ b ∈ bs, Wide b) (hs : Separate bs) {c d : Nat} (hc : c < bs.length * 8) (hd : d < bs.length * 8)
    (h : cellD bs c = cellD bs d) : c = d := by
  by_contra hne
  have := cells_separate hw hs c d _ _ hne (cellD_get hc) (cellD_get hd)
  rw [← h] at this
  have hv := cells_solid hw _ (List.mem_of_getElem? (cellD_get hc))
  exact this (cellD bs c).lo ⟨by unfold Inside; obtain ⟨h1, h2, h3⟩ := hv; omega, by unfold Inside; obtain ⟨h1, h2, h3⟩ := hv; omega⟩

/-- On a periodic domain nothing is lost. -/
theorem periodic_zero {F : Nat → PState → PState → CState} {gamma dtI dx : ℚ} {m : Nat} {bs : Nat → List Box} {u : Nat → List CellIn} {n : Nat → Nat}
    (ha : ∀ p < m, Antisym F gamma dtI dx (bs p) (u p)) (hn : ∀ p < m, n p ≤ (bs p).length * 8) (hw : ∀ p < m, ∀ b ∈ bs p, Wide b) (hs : ∀ p < m, Separate (bs p))
    {src : Nat → Nat → Nat × Nat} {sh : Nat → Nat → V3 Int} (P : Patchwork m bs u n src sh) (i : Fin 5) :
    ∑ p ∈ Finset.range m, ∑ c ∈ Finset.range (n p), ∑ dir ∈ Finset.range 6, ∑ d ∈ Finset.range ((bs p).length * 8),
        (if Faces dir (cellD (bs p) c) (cellD (bs p) d) then outflow F gamma dtI dx (bs p) (u p) i dir c d else 0) = 0 := by
  have hex : ∀ p dir c d, ∃ c', p < m → dir < 6 → c < n p → d < (bs p).length * 8 → Faces dir (cellD (bs p) c) (cellD (bs p) d) →
      c' < (bs (src p d).1).length * 8 ∧ src (src p d).1 c' = (p, c) ∧ sh (src p d).1 c' = negV (sh p d) := by
    intro p dir c d
    by_cases h : p < m ∧ dir < 6 ∧ c < n p ∧ d < (bs p).length * 8 ∧ Faces dir (cellD (bs p) c) (cellD (bs p) d)
    · obtain ⟨c', h1, h2, h3⟩ := P.full p h.1 dir h.2.1 c h.2.2.1 d h.2.2.2.1 h.2.2.2.2
      exact ⟨c', fun _ _ _ _ _ => ⟨h1, h2, h3⟩⟩
    · exact ⟨0, fun z a b c d => absurd ⟨z, a, b, c, d⟩ h⟩
  choose im him using hex
  have hsw : ∀ p, ∑ c ∈ Finset.range (n p), ∑ dir ∈ Finset.range 6, ∑ d ∈ Finset.range ((bs p).length * 8),
        (if Faces dir (cellD (bs p) c) (cellD (bs p) d) then outflow F gamma dtI dx (bs p) (u p) i dir c d else 0) =
      ∑ dir ∈ Finset.range 6, ∑ c ∈ Finset.range (n p), ∑ d ∈ Finset.range ((bs p).length * 8),
        (if Faces dir (cellD (bs p) c) (cellD (bs p) d) then outflow F gamma dtI dx (bs p) (u p) i dir c d else 0) := fun p => Finset.sum_comm
  simp only [hsw]
  rw [Finset.sum_comm]
  apply sum_opp
  intro dir hdir
  simp only [← Finset.sum_product']
  rw [Finset.sum_sigma', Finset.sum_sigma', ← Finset.sum_filter, ← Finset.sum_filter, ← Finset.sum_neg_distrib]
  have hmap : ∀ dir < 6, ∀ x ∈ ((Finset.range m).sigma fun p => Finset.range (n p) ×ˢ Finset.range ((bs p).length * 8)).filter
        (fun x => Faces dir (cellD (bs x.1) x.2.1) (cellD (bs x.1) x.2.2)),
      (⟨(src x.1 x.2.2).1, (src x.1 x.2.2).2, im x.1 dir x.2.1 x.2.2⟩ : (_ : Nat) × Nat × Nat) ∈
        ((Finset.range m).sigma fun p => Finset.range (n p) ×ˢ Finset.range ((bs p).length * 8)).filter
          (fun x => Faces (opp dir) (cellD (bs x.1) x.2.1) (cellD (bs x.1) x.2.2)) := by
    intro dir hdir x hx
    rw [Finset.mem_filter, Finset.mem_sigma, Finset.mem_product, Finset.mem_range, Finset.mem_range, Finset.mem_range] at hx ⊢
    obtain ⟨⟨h0, h1, h2⟩, h3⟩ := hx
    obtain ⟨k1, k2, k3⟩ := him x.1 dir x.2.1 x.2.2 h0 hdir h1 h2 h3
    have hl := P.lt _ h0 _ h2
    exact ⟨⟨hl.1, hl.2, k1⟩, (outflow_image ha hn P h0 hdir h1 h2 k1 k2 k3 h3).1⟩
  have hinv : ∀ dir < 6, ∀ x ∈ ((Finset.range m).sigma fun p => Finset.range (n p) ×ˢ Finset.range ((bs p).length * 8)).filter
        (fun x => Faces dir (cellD (bs x.1) x.2.1) (cellD (bs x.1) x.2.2)),
      (⟨(src (src x.1 x.2.2).1 (im x.1 dir x.2.1 x.2.2)).1, (src (src x.1 x.2.2).1 (im x.1 dir x.2.1 x.2.2)).2,
        im (src x.1 x.2.2).1 (opp dir) (src x.1 x.2.2).2 (im x.1 dir x.2.1 x.2.2)⟩ : (_ : Nat) × Nat × Nat) = x := by
    intro dir hdir x hx
    have hm := hmap dir hdir x hx
    rw [Finset.mem_filter, Finset.mem_sigma, Finset.mem_product, Finset.mem_range, Finset.mem_range, Finset.mem_range] at hx hm
    obtain ⟨⟨h0, h1, h2⟩, h3⟩ := hx
    obtain ⟨⟨m0, m1, m2⟩, m3⟩ := hm
    obtain ⟨k1, k2, k3⟩ := him x.1 dir x.2.1 x.2.2 h0 hdir h1 h2 h3
    obtain ⟨l1, l2, l3⟩ := him _ (opp dir) _ _ m0 (opp_lt hdir) m1 m2 m3
    dsimp only at l1 l2 l3
    rw [k2] at l1 l2 l3
    dsimp only at l1 l2 l3
    have : im (src x.1 x.2.2).1 (opp dir) (src x.1 x.2.2).2 (im x.1 dir x.2.1 x.2.2) = x.2.2 := by
      apply cell_unique (hw _ h0) (hs _ h0) l1 h2
      rw [P.box _ h0 _ l1, P.box _ h0 _ h2, l2, l3, k3]
      simp only [negV, neg_neg]
    rw [this, k2]
  have hoo : opp (opp dir) = dir := by interval_cases dir <;> rfl
  symm
  apply Finset.sum_bij' (fun x _ => (⟨(src x.1 x.2.2).1, (src x.1 x.2.2).2, im x.1 dir x.2.1 x.2.2⟩ : (_ : Nat) × Nat × Nat))
    (fun x _ => (⟨(src x.1 x.2.2).1, (src x.1 x.2.2).2, im x.1 (opp dir) x.2.1 x.2.2⟩ : (_ : Nat) × Nat × Nat))
  · exact hmap dir hdir
  · intro x hx
    have := hmap (opp dir) (opp_lt hdir) x hx
    rw [hoo] at this
    exact this
  · exact hinv dir hdir
  · intro x hx
    have := hinv (opp dir) (opp_lt hdir) x hx
    rw [hoo] at this
    exact this
  · intro x hx
    rw [Finset.mem_filter, Finset.mem_sigma, Finset.mem_product, Finset.mem_range, Finset.mem_range, Finset.mem_range] at hx
    obtain ⟨⟨h0, h1, h2⟩, h3⟩ := hx
    obtain ⟨k1, k2, k3⟩ := him x.1 dir x.2.1 x.2.2 h0 hdir h1 h2 h3
    exact ((outflow_image ha hn P h0 hdir h1 h2 k1 k2 k3 h3).2 i).symm

/-- Forward Euler, quantity by quantity. -/
theorem euler_q (dt : ℚ) (old rate : List CState) (hl : old.length = rate.length) (c : Nat) (i : Fin 5) :
    ((euler dt old rate).getD c state0).q i = (old.getD c state0).q i + dt * (rate.getD c state0).q i := by
  unfold euler
  rw [List.getD_eq_getElem?_getD, List.getD_eq_getElem?_getD, List.getD_eq_getElem?_getD, List.getElem?_zipWith]
  by_cases hc : c < old.length
  · rw [List.getElem?_eq_getElem hc, List.getElem?_eq_getElem (by omega)]
    fin_cases i <;> rfl
  · rw [List.getElem?_eq_none (by omega), List.getElem?_eq_none (by omega)]
    have : state0.q i = 0 := q_zero i
    simp [this]

end Shamrock.Fv
