import Verif.Proof.FvGrid
import Verif.Props.FvSlope
/-! C61, second part: the Godunov step on all the patches of a periodic grid. The specification (`Domain`, `gridOf`, `consList`) is at the head of Proof/FvGrid.lean,
`Graded` at the head of Proof/FvTile.lean; `Gz.mergedBlocks` are the blocks of a patch after the ghost exchange (C60). -/
namespace Shamrock.Fv
open Amr

/-- The mesh of patch number `p` after the ghost exchange. -/
noncomputable def mergedMesh (sim : Shamrock.Box Int) (ly : Gz.GLayout) (tv : Gz.TVec) (pbox : Nat → Shamrock.Box Int) (recs : Nat → List (Gz.GRec ℚ)) (ss : List Nat) (p : Nat) : List Amr.Box :=
  (Gz.mergedBlocks ly per sim tv pbox recs ss (idOf ss p)).map boxOf

/-- Its conserved fields. -/
noncomputable def mergedCons (sim : Shamrock.Box Int) (ly : Gz.GLayout) (tv : Gz.TVec) (pbox : Nat → Shamrock.Box Int) (recs : Nat → List (Gz.GRec ℚ)) (ss : List Nat) (p : Nat) : List CState :=
  consList (Gz.mergedBlocks ly per sim tv pbox recs ss (idOf ss p))

/-- Total of a conserved quantity over the blocks of all the patches, with the fields `cons p` on patch `p`. -/
def total (dx : ℚ) (recs : Nat → List (Gz.GRec ℚ)) (ss : List Nat) (cons : Nat → List CState) (i : Fin 5) : ℚ :=
  ∑ p ∈ Finset.range ss.length, ∑ c ∈ Finset.range (8 * (recs (idOf ss p)).length), volume dx (cellD (gridOf recs ss p) c) * ((cons p).getD c state0).q i

section
variable {sim : Shamrock.Box Int} {ly : Gz.GLayout} {pbox : Nat → Shamrock.Box Int} {recs : Nat → List (Gz.GRec ℚ)} {ss : List Nat}

/-- C61 (the merged patches are meshes). The blocks of a patch and its ghosts are cubes that do not overlap: the hypotheses of C58 and C59 hold once the search tree
can be built and the links are fewer than 2^32. -/
theorem C61_mesh (D : Domain sim ly pbox recs ss) (tv : Gz.TVec) {p : Nat} (hp : p < ss.length) {env : BVHEnv Int} {lo hi : V3 Int}
    (ht : TreeIn env (mergedMesh sim ly tv pbox recs ss p) lo hi)
    (hn : ∀ dir < 6, facePairs dir (mergedMesh sim ly tv pbox recs ss p) < 2 ^ 32 ∧ facePairs dir (cells (mergedMesh sim ly tv pbox recs ss p)) < 2 ^ 32) :
    MeshIn env (mergedMesh sim ly tv pbox recs ss p) lo hi := by
  obtain ⟨lab, T, h1, -⟩ := domain_tiling D tv
  have e : mergedMesh sim ly tv pbox recs ss p = meshOf (gridOf recs ss) (sizeOfDom sim) lab p := h1 p hp
  refine ⟨ht, ?_, ?_, hn⟩
  · intro i j A B hij hA hB
    rw [e, meshOf, List.getElem?_map] at hA hB
    rcases h2 : (lab p)[i]? with _ | l
    · rw [h2] at hA; simp at hA
    rcases h3 : (lab p)[j]? with _ | l'
    · rw [h3] at hB; simp at hB
    rw [h2, Option.map_some, Option.some.injEq] at hA
    rw [h3, Option.map_some, Option.some.injEq] at hB
    subst hA hB
    obtain ⟨a1, a2, -⟩ := (T.mem p hp l).1 (List.mem_of_getElem? h2)
    obtain ⟨b1, b2, -⟩ := (T.mem p hp l').1 (List.mem_of_getElem? h3)
    refine T.apart l l' a1 b1 a2 b2 ?_
    rintro rfl
    apply hij
    obtain ⟨k1, e1⟩ := List.getElem?_eq_some_iff.1 h2
    obtain ⟨k2, e2⟩ := List.getElem?_eq_some_iff.1 h3
    exact (List.Nodup.getElem_inj_iff (T.nodup p hp)).1 (e1.trans e2.symm)
  · intro b hb
    rw [e, meshOf] at hb
    obtain ⟨l, hl, rfl⟩ := List.mem_map.1 hb
    obtain ⟨a1, a2, -⟩ := (T.mem p hp l).1 hl
    exact blockAt_cube T a1 a2

theorem merged_prefix (sim : Shamrock.Box Int) (ly : Gz.GLayout) (tv : Gz.TVec) (pbox : Nat → Shamrock.Box Int) (recs : Nat → List (Gz.GRec ℚ)) (ss : List Nat) (p : Nat) :
    (∃ t, mergedMesh sim ly tv pbox recs ss p = gridOf recs ss p ++ t) ∧ (∃ t, mergedCons sim ly tv pbox recs ss p = consList (recs (idOf ss p)) ++ t) ∧
      (mergedCons sim ly tv pbox recs ss p).length = (mergedMesh sim ly tv pbox recs ss p).length * 8 := by
  unfold mergedMesh mergedCons gridOf
  refine ⟨?_, ?_, ?_⟩
  · unfold Gz.mergedBlocks
    rw [List.map_append]; exact ⟨_, rfl⟩
  · unfold Gz.mergedBlocks consList
    rw [List.flatMap_append]; exact ⟨_, rfl⟩
  · rw [consList_length, List.length_map]

theorem cellD_prefix {bs bs' t : List Amr.Box} (h : bs = bs' ++ t) {c : Nat} (hc : c < 8 * bs'.length) : cellD bs c = cellD bs' c := by
  subst h
  unfold cellD
  rw [List.getD_eq_getElem?_getD, List.getD_eq_getElem?_getD, cells_get, cells_get, List.getElem?_append_left (by omega)]

theorem cellSpec_none (A : Ar) (gamma dx : ℚ) (bs : List Amr.Box) (cons : List CState) (c : Nat) : cellSpec A gamma dx .none bs cons c =
    ⟨(A.consToPrim gamma (cons.getD c state0)).rho, (A.consToPrim gamma (cons.getD c state0)).press, (A.consToPrim gamma (cons.getD c state0)).vel,
      ⟨0, 0, 0⟩, ⟨0, 0, 0⟩, ⟨0, 0, 0⟩, ⟨0, 0, 0⟩, ⟨0, 0, 0⟩⟩ := rfl

/-- C61 (conservation). For every periodic grid of patches, blocks and fields, distribution of the blocks over the patches, limiter and schedule: the step runs on every patch
without leaving its buffers, and if the flux is antisymmetric it leaves the total mass, energy and momentum of the domain unchanged. With slopes the grid must be
graded. -/
theorem C61_conservation (D : Domain sim ly pbox recs ss) (tv : Gz.TVec) {env : Nat → BVHEnv Int} {lo hi : Nat → V3 Int}
    (H : ∀ p < ss.length, MeshIn (env p) (mergedMesh sim ly tv pbox recs ss p) (lo p) (hi p)) {level : Nat} {g : Nat → Nat → NGraph}
    (hg : ∀ p < ss.length, Built (env p) (mergedMesh sim ly tv pbox recs ss p) level (g p))
    (A : Ar) (F : Nat → PState → PState → CState) (gamma dtI dt : ℚ) {dx : ℚ} (hdx : 0 < dx) (mode : SlopeMode)
    (hm : mode = .none ∨ Graded ss.length (gridOf recs ss) (sizeOfDom sim) sim.lower) (junk : Nat → Nat → PState × PState) (sched : Nat → Nat → List Nat) :
    ∃ u : Nat → List CellIn,
      (∀ p < ss.length, fvCells A gamma dx mode (mergedMesh sim ly tv pbox recs ss p) (g p) (mergedCons sim ly tv pbox recs ss p) = some (u p)) ∧
      ((∀ p < ss.length, Antisym F gamma dtI dx (mergedMesh sim ly tv pbox recs ss p) (u p)) → ∃ new : Nat → List CState,
        (∀ p < ss.length, patchStep A F gamma dtI dt dx mode (junk p) (sched p) (mergedMesh sim ly tv pbox recs ss p) (g p) (mergedCons sim ly tv pbox recs ss p)
          (8 * (recs (idOf ss p)).length) = some (new p)) ∧
        ∀ i, total dx recs ss new i = total dx recs ss (fun p => consList (recs (idOf ss p))) i) := by
  obtain ⟨lab, T, h1, h2⟩ := domain_tiling D tv
  have hmesh : ∀ p < ss.length, mergedMesh sim ly tv pbox recs ss p = meshOf (gridOf recs ss) (sizeOfDom sim) lab p := h1
  have hpre := fun p => merged_prefix sim ly tv pbox recs ss p
  have hlen : ∀ q, (gridOf recs ss q).length = (recs (idOf ss q)).length := fun q => by unfold gridOf; rw [List.length_map]
  have hcons : ∀ p < ss.length, ∀ d < (lab p).length * 8, (mergedCons sim ly tv pbox recs ss p).getD d state0 =
      (mergedCons sim ly tv pbox recs ss (srcOf lab p d).1).getD (srcOf lab p d).2 state0 := h2
  let u : Nat → List CellIn := fun p => (List.range ((mergedMesh sim ly tv pbox recs ss p).length * 8)).map
    (cellSpec A gamma dx mode (mergedMesh sim ly tv pbox recs ss p) (mergedCons sim ly tv pbox recs ss p))
  have hu : ∀ p < ss.length, fvCells A gamma dx mode (mergedMesh sim ly tv pbox recs ss p) (g p) (mergedCons sim ly tv pbox recs ss p) = some (u p) :=
    fun p hp => C61_slopes (H p hp) (hg p hp) A gamma dx mode _ (hpre p).2.2
  have hug : ∀ p d, d < (mergedMesh sim ly tv pbox recs ss p).length * 8 → (u p).getD d cell0 =
      cellSpec A gamma dx mode (mergedMesh sim ly tv pbox recs ss p) (mergedCons sim ly tv pbox recs ss p) d := by
    intro p d hd
    show ((List.range _).map _).getD d cell0 = _
    rw [List.getD_eq_getElem?_getD, List.getElem?_map, List.getElem?_range hd]; rfl
  have hml : ∀ p < ss.length, (mergedMesh sim ly tv pbox recs ss p).length = (lab p).length := fun p hp => by rw [hmesh p hp, mesh_length]
  have P : Patchwork ss.length (mergedMesh sim ly tv pbox recs ss) u (fun p => 8 * (gridOf recs ss p).length) (srcOf lab) (shOf lab (sizeOfDom sim)) := by
    have P' := tiling_patchwork T u (by
      intro p hp d hd ho ht
      obtain ⟨l1, l2, -⟩ := (T.mem p hp _).1 (labD_mem hd)
      have hs1 : (srcOf lab p d).1 < ss.length := l1
      have hs2 : (srcOf lab p d).2 < (mergedMesh sim ly tv pbox recs ss (srcOf lab p d).1).length * 8 := by
        have := own_len T l1
        rw [hml _ hs1]
        unfold srcOf
        dsimp only
        omega
      rw [hug p d (by rw [hml p hp]; exact hd), hug _ _ hs2]
      rcases hm with rfl | G
      · rw [cellSpec_none, cellSpec_none, hcons p hp d hd]
      · obtain ⟨dir, hdir, c, hc, hf⟩ := ht
        have key := fun (k : PState → ℚ) => slopes_image T G mode dx (fun p d => k (A.consToPrim gamma ((mergedCons sim ly tv pbox recs ss p).getD d state0)))
          (fun p hp d hd => by rw [hcons p hp d hd]) hp hd ho hdir hc hf
        rw [← hmesh p hp, ← hmesh _ hs1] at key
        unfold cellSpec
        dsimp only
        have e1 := key (·.rho)
        have e2 := key (·.press)
        have e3 := key (·.vel.x)
        have e4 := key (·.vel.y)
        have e5 := key (·.vel.z)
        rw [e1, e2, e3, e4, e5, hcons p hp d hd])
    refine ⟨?_, ?_, ?_, ?_⟩
    · intro p hp d hd
      rw [hmesh p hp] at hd
      exact P'.lt p hp d hd
    · intro p hp d hd
      rw [hmesh p hp] at hd ⊢
      rw [P'.box p hp d hd, hmesh _ (P'.lt p hp d hd).1]
    · intro p hp d hd ht
      rw [hmesh p hp] at hd ht
      exact P'.val p hp d hd ht
    · intro p hp dir hdir c hc d hd hf
      rw [hmesh p hp] at hd hf
      rw [hmesh _ (P'.lt p hp d hd).1]
      exact P'.full p hp dir hdir c hc d hd hf
  refine ⟨u, hu, fun ha => ?_⟩
  have hn : ∀ p < ss.length, 8 * (gridOf recs ss p).length ≤ (mergedMesh sim ly tv pbox recs ss p).length * 8 := by
    intro p _
    obtain ⟨t, ht⟩ := (hpre p).1
    rw [ht, List.length_append]; omega
  obtain ⟨rates, r1, r2⟩ := C59_periodic H hg F gamma dtI hdx (u := u) (fun p hp => by simp [u]) ha (fun p => 8 * (gridOf recs ss p).length) hn P junk sched dt
    (fun p => consList (recs (idOf ss p))) (fun p _ => by rw [consList_length, hlen]; omega)
  refine ⟨fun p => euler dt (consList (recs (idOf ss p))) (rates p), ?_, ?_⟩
  · intro p hp
    unfold patchStep
    rw [hu p hp]
    have e := r1 p hp
    simp only [hlen] at e
    rw [Option.bind_eq_bind, Option.bind_some, e, Option.bind_eq_bind, Option.bind_some]
    obtain ⟨t, ht⟩ := (hpre p).2.1
    rw [ht, List.take_append_of_le_length (by rw [consList_length]; omega), List.take_of_length_le (by rw [consList_length]; omega)]
    rfl
  · intro i
    have := r2 i
    unfold total
    simp only [hlen] at this
    have hv : ∀ p < ss.length, ∀ c < 8 * (recs (idOf ss p)).length, cellD (gridOf recs ss p) c = cellD (mergedMesh sim ly tv pbox recs ss p) c := by
      intro p hp c hc
      obtain ⟨t, ht⟩ := (hpre p).1
      exact (cellD_prefix ht (by rw [hlen]; exact hc)).symm
    have conv : ∀ st : Nat → List CState, ∑ p ∈ Finset.range ss.length, ∑ c ∈ Finset.range (8 * (recs (idOf ss p)).length), volume dx (cellD (gridOf recs ss p) c) * ((st p).getD c state0).q i =
        ∑ p ∈ Finset.range ss.length, ∑ c ∈ Finset.range (8 * (recs (idOf ss p)).length), volume dx (cellD (mergedMesh sim ly tv pbox recs ss p) c) * ((st p).getD c state0).q i := by
      intro st
      apply Finset.sum_congr rfl
      intro p hp
      apply Finset.sum_congr rfl
      intro c hc
      rw [hv p (Finset.mem_range.1 hp) c (Finset.mem_range.1 hc)]
    rw [conv, conv]
    exact this

/-- C61 (Rusanov). With the Rusanov flux, for any rounding that commutes with the sign, any square root, any fields, any limiter. -/
theorem C61_rusanov (D : Domain sim ly pbox recs ss) (tv : Gz.TVec) {env : Nat → BVHEnv Int} {lo hi : Nat → V3 Int}
    (H : ∀ p < ss.length, MeshIn (env p) (mergedMesh sim ly tv pbox recs ss p) (lo p) (hi p)) {level : Nat} {g : Nat → Nat → NGraph}
    (hg : ∀ p < ss.length, Built (env p) (mergedMesh sim ly tv pbox recs ss p) level (g p))
    (A : Ar) (hA : A.Odd) (gamma dtI dt : ℚ) {dx : ℚ} (hdx : 0 < dx) (mode : SlopeMode)
    (hm : mode = .none ∨ Graded ss.length (gridOf recs ss) (sizeOfDom sim) sim.lower) (junk : Nat → Nat → PState × PState) (sched : Nat → Nat → List Nat) :
    ∃ new : Nat → List CState,
      (∀ p < ss.length, patchStep A (A.flux gamma .rusanov) gamma dtI dt dx mode (junk p) (sched p) (mergedMesh sim ly tv pbox recs ss p) (g p) (mergedCons sim ly tv pbox recs ss p)
        (8 * (recs (idOf ss p)).length) = some (new p)) ∧
      ∀ i, total dx recs ss new i = total dx recs ss (fun p => consList (recs (idOf ss p))) i := by
  obtain ⟨u, -, h⟩ := C61_conservation D tv H hg A (A.flux gamma .rusanov) gamma dtI dt hdx mode hm junk sched
  exact h fun p _ => (C59_solvers gamma dtI dx _ (u p)).1 A hA

/-- C61 (HLL, first order). Without slopes, with the HLL flux, if the gas of each block has positive density and pressure. -/
theorem C61_hll (D : Domain sim ly pbox recs ss) (tv : Gz.TVec) {env : Nat → BVHEnv Int} {lo hi : Nat → V3 Int}
    (H : ∀ p < ss.length, MeshIn (env p) (mergedMesh sim ly tv pbox recs ss p) (lo p) (hi p)) {level : Nat} {g : Nat → Nat → NGraph}
    (hg : ∀ p < ss.length, Built (env p) (mergedMesh sim ly tv pbox recs ss p) level (g p))
    (s : ℚ → ℚ) (hs : ∀ x, 0 < x → 0 < s x) {gamma : ℚ} (hgam : 1 < gamma) (dtI dt : ℚ) {dx : ℚ} (hdx : 0 < dx)
    (hphys : ∀ S ∈ ss, ∀ r ∈ recs S, ∀ c < 8, ((exact s).consToPrim gamma (consOf r c)).Phys) (junk : Nat → Nat → PState × PState) (sched : Nat → Nat → List Nat) :
    ∃ new : Nat → List CState,
      (∀ p < ss.length, patchStep (exact s) ((exact s).flux gamma .hll) gamma dtI dt dx .none (junk p) (sched p) (mergedMesh sim ly tv pbox recs ss p) (g p)
        (mergedCons sim ly tv pbox recs ss p) (8 * (recs (idOf ss p)).length) = some (new p)) ∧
      ∀ i, total dx recs ss new i = total dx recs ss (fun p => consList (recs (idOf ss p))) i := by
  obtain ⟨u, hu, h⟩ := C61_conservation D tv H hg (exact s) ((exact s).flux gamma .hll) gamma dtI dt hdx .none (Or.inl rfl) junk sched
  refine h fun p hp => (C59_solvers gamma dtI dx _ (u p)).2.1 s hs hgam ?_
  have hpre := fun p => merged_prefix sim ly tv pbox recs ss p
  have e := hu p hp
  rw [C61_slopes (H p hp) (hg p hp) (exact s) gamma dx .none _ (hpre p).2.2, Option.some.injEq] at e
  obtain ⟨lab, T, h1, h2⟩ := domain_tiling D tv
  have hml : (mergedMesh sim ly tv pbox recs ss p).length = (lab p).length := by
    have : mergedMesh sim ly tv pbox recs ss p = meshOf (gridOf recs ss) (sizeOfDom sim) lab p := h1 p hp
    rw [this, mesh_length]
  have hP : ∀ d < (mergedMesh sim ly tv pbox recs ss p).length * 8, ((exact s).consToPrim gamma ((mergedCons sim ly tv pbox recs ss p).getD d state0)).Phys := by
    intro d hd
    rw [hml] at hd
    obtain ⟨l1, l2, -⟩ := (T.mem p hp _).1 (labD_mem hd)
    have hs1 : (srcOf lab p d).1 < ss.length := l1
    have hs2 : (srcOf lab p d).2 / 8 < (recs (idOf ss (srcOf lab p d).1)).length := by
      have : (gridOf recs ss (labD lab p d).1).length = (recs (idOf ss (labD lab p d).1)).length := by unfold gridOf; rw [List.length_map]
      rw [this] at l2
      have e1 : (srcOf lab p d).1 = (labD lab p d).1 := rfl
      rw [e1]
      unfold srcOf
      dsimp only
      omega
    have e2 : (mergedCons sim ly tv pbox recs ss p).getD d state0 = (mergedCons sim ly tv pbox recs ss (srcOf lab p d).1).getD (srcOf lab p d).2 state0 := h2 p hp d hd
    rw [e2]
    obtain ⟨t, ht⟩ := (hpre (srcOf lab p d).1).2.1
    rw [ht, List.getD_eq_getElem?_getD, List.getElem?_append_left (by rw [consList_length]; omega), consList_get, List.getElem?_eq_getElem hs2]
    exact hphys _ (idOf_mem hs1) _ (List.getElem_mem hs2) _ (Nat.mod_lt _ (by omega))
  have hface : ∀ d < (mergedMesh sim ly tv pbox recs ss p).length * 8, ∀ sh, (faceState gamma dtI ((u p).getD d cell0) sh).Phys := by
    intro d hd sh
    have : (u p).getD d cell0 = cellSpec (exact s) gamma dx .none (mergedMesh sim ly tv pbox recs ss p) (mergedCons sim ly tv pbox recs ss p) d := by
      rw [← e, List.getD_eq_getElem?_getD, List.getElem?_map, List.getElem?_range hd]; rfl
    rw [this, cellSpec_none]
    have := hP d hd
    unfold PState.Phys at this ⊢
    unfold faceState dot
    dsimp only
    simpa using this
  intro dir hd c hc d hdd hf
  exact ⟨hface c hc _, hface d hdd _⟩

end

theorem facePairs_le (dir : Nat) (bs : List Amr.Box) : facePairs dir bs ≤ bs.length * bs.length := by
  unfold facePairs
  have : ∀ (l : List Amr.Box), (l.map fun a => (bs.filter fun b => decide (Faces dir a b)).length).sum ≤ l.length * bs.length := by
    intro l
    induction l with
    | nil => simp
    | cons a l ih =>
      rw [List.map_cons, List.sum_cons, List.length_cons, Nat.add_mul, Nat.one_mul]
      have := List.length_filter_le (fun b => decide (Faces dir a b)) bs
      omega
  exact this bs

theorem cells_length' (bs : List Amr.Box) : (cells bs).length = bs.length * 8 := by
  unfold cells
  induction bs with
  | nil => rfl
  | cons b bs ih => rw [List.flatMap_cons, List.length_append, ih]; simp; omega

theorem attain_min (f : Amr.Box → Int) : ∀ (bs : List Amr.Box), bs ≠ [] → ∃ m, (∀ b ∈ bs, m ≤ f b) ∧ ∃ b ∈ bs, f b = m := by
  intro bs
  induction bs with
  | nil => intro h; exact absurd rfl h
  | cons b bs ih =>
    intro _
    by_cases hb : bs = []
    · subst hb; exact ⟨f b, by simp, b, by simp, rfl⟩
    · obtain ⟨m, h1, c, hc, h2⟩ := ih hb
      rcases le_total (f b) m with h | h
      · exact ⟨f b, by intro d hd; rcases List.mem_cons.1 hd with rfl | hd; exact le_refl _; exact h.trans (h1 d hd), b, by simp, rfl⟩
      · exact ⟨m, by intro d hd; rcases List.mem_cons.1 hd with rfl | hd; exact h; exact h1 d hd, c, by simp [hc], h2⟩

theorem hull_exists (bs : List Amr.Box) (h : bs ≠ []) : ∃ lo hi, IsHull bs lo hi := by
  have mx : ∀ f : Amr.Box → Int, ∃ m, (∀ b ∈ bs, f b ≤ m) ∧ ∃ b ∈ bs, f b = m := by
    intro f
    obtain ⟨m, h1, b, hb, h2⟩ := attain_min (fun b => -f b) bs h
    exact ⟨-m, fun c hc => by have := h1 c hc; omega, b, hb, by omega⟩
  obtain ⟨x, x1, x2⟩ := attain_min (·.lo.x) bs h
  obtain ⟨y, y1, y2⟩ := attain_min (·.lo.y) bs h
  obtain ⟨z, z1, z2⟩ := attain_min (·.lo.z) bs h
  obtain ⟨X, X1, X2⟩ := mx (·.hi.x)
  obtain ⟨Y, Y1, Y2⟩ := mx (·.hi.y)
  obtain ⟨Z, Z1, Z2⟩ := mx (·.hi.z)
  exact ⟨⟨x, y, z⟩, ⟨X, Y, Z⟩, ⟨fun b hb => ⟨x1 b hb, X1 b hb⟩, x2, X2⟩, ⟨fun b hb => ⟨y1 b hb, Y1 b hb⟩, y2, Y2⟩, fun b hb => ⟨z1 b hb, Z1 b hb⟩, z2, Z2⟩

theorem merged_length (sim : Shamrock.Box Int) (ly : Gz.GLayout) (tv : Gz.TVec) (pbox : Nat → Shamrock.Box Int) (recs : Nat → List (Gz.GRec ℚ)) (ss : List Nat) (p : Nat) :
    (mergedMesh sim ly tv pbox recs ss p).length ≤ (recs (idOf ss p)).length + 27 * (ss.map fun S => (recs S).length).sum := by
  unfold mergedMesh Gz.mergedBlocks
  rw [List.length_map, List.length_append, Nat.add_le_add_iff_left]
  have h27 : (Gz.tiles per).length = 27 := by decide
  have key : ∀ S R k, (Gz.ghostBlocks ly per sim tv pbox recs S R k).length ≤ (recs S).length := by
    intro S R k
    unfold Gz.ghostBlocks
    split
    · simp
    · rw [List.length_map]; exact List.length_filter_le _ _
  have inner : ∀ (S R : Nat) (l : List (V3 Int)), (l.flatMap (Gz.ghostBlocks ly per sim tv pbox recs S R)).length ≤ l.length * (recs S).length := by
    intro S R l
    induction l with
    | nil => simp
    | cons k l ih =>
      rw [List.flatMap_cons, List.length_append, List.length_cons, Nat.add_mul, Nat.one_mul]
      have := key S R k
      omega
  have outer : ∀ (R : Nat) (l : List Nat), (l.flatMap fun S => (Gz.tiles per).flatMap (Gz.ghostBlocks ly per sim tv pbox recs S R)).length ≤ 27 * (l.map fun S => (recs S).length).sum := by
    intro R l
    induction l with
    | nil => simp
    | cons S l ih =>
      rw [List.flatMap_cons, List.length_append, List.map_cons, List.sum_cons, Nat.mul_add]
      have := inner S R (Gz.tiles per)
      rw [h27] at this
      omega
  exact outer _ ss

/-- C61 (small domains). On a domain of less than `2^18` units with few blocks the merged patches always meet the conditions of C58 and C59. -/
theorem C61_small_mesh {sim : Shamrock.Box Int} {ly : Gz.GLayout} {pbox : Nat → Shamrock.Box Int} {recs : Nat → List (Gz.GRec ℚ)} {ss : List Nat}
    (D : Domain sim ly pbox recs ss) (tv : Gz.TVec) {p : Nat} (hp : p < ss.length) (hne : recs (idOf ss p) ≠ [])
    (hsz : (sizeOfDom sim).x ≤ 2 ^ 18 ∧ (sizeOfDom sim).y ≤ 2 ^ 18 ∧ (sizeOfDom sim).z ≤ 2 ^ 18)
    (hcnt : (recs (idOf ss p)).length + 27 * (ss.map fun S => (recs S).length).sum ≤ 8191) {env : BVHEnv Int}
    (hord : env.order.Perm (List.range (mergedMesh sim ly tv pbox recs ss p).length)) (h1 : env.schedMin.length = 64) (h2 : env.schedMax.length = 64) :
    ∃ lo hi, MeshIn env (mergedMesh sim ly tv pbox recs ss p) lo hi := by
  have hlen := (merged_length sim ly tv pbox recs ss p).trans hcnt
  have hnm : mergedMesh sim ly tv pbox recs ss p ≠ [] := by
    obtain ⟨t, ht⟩ := (merged_prefix sim ly tv pbox recs ss p).1
    rw [ht]
    unfold gridOf
    simp [hne]
  obtain ⟨lo, hi, hh⟩ := hull_exists _ hnm
  refine ⟨lo, hi, ?_⟩
  obtain ⟨lab, T, k1, -⟩ := domain_tiling D tv
  have e : mergedMesh sim ly tv pbox recs ss p = meshOf (gridOf recs ss) (sizeOfDom sim) lab p := k1 p hp
  have hb : ∀ b ∈ mergedMesh sim ly tv pbox recs ss p, Cube2 b ∧ ∀ j < 3, V3.at b.hi j - V3.at b.lo j ≤ V3.at (sizeOfDom sim) j ∧ V3.at b.lo j ≤ V3.at sim.upper j ∧ V3.at sim.lower j ≤ V3.at b.hi j := by
    intro b hb
    rw [e, meshOf] at hb
    obtain ⟨l, hl, rfl⟩ := List.mem_map.1 hb
    obtain ⟨a1, a2, a3⟩ := (T.mem p hp l).1 hl
    refine ⟨blockAt_cube T a1 a2, fun j hj => ?_⟩
    have w := T.inside l.1 a1 _ (blk_mem a2) j hj
    have m := a3 j hj
    have q1 := at_inBox (D.box _ (idOf_mem a1)).2 j hj
    have q2 := at_inBox (D.box _ (idOf_mem hp)).2 j hj
    have at_size : V3.at (sizeOfDom sim) j = V3.at sim.upper j - V3.at sim.lower j := by
      rcases lt3 hj with rfl | rfl | rfl <;> rfl
    unfold blockAt at m ⊢
    rw [(at_shift _ _ j).1, (at_shift _ _ j).2] at m ⊢
    simp only at w m
    rw [at_size]
    refine ⟨?_, ?_, ?_⟩ <;> omega
  have hx : hi.x - lo.x ≤ 2 ^ 20 ∧ hi.y - lo.y ≤ 2 ^ 20 ∧ hi.z - lo.z ≤ 2 ^ 20 := by
    have gen : ∀ (j : Nat), j < 3 → ∀ l h : Int, V3.at (sizeOfDom sim) j ≤ 2 ^ 18 → (∃ b ∈ mergedMesh sim ly tv pbox recs ss p, V3.at b.lo j = l) →
        (∃ b ∈ mergedMesh sim ly tv pbox recs ss p, V3.at b.hi j = h) → h - l ≤ 2 ^ 20 := by
      intro j hj l h hs ⟨b, hb1, hb2⟩ ⟨c, hc1, hc2⟩
      have q1 := (hb b hb1).2 j hj
      have q2 := (hb c hc1).2 j hj
      have at_size : V3.at (sizeOfDom sim) j = V3.at sim.upper j - V3.at sim.lower j := by
        rcases lt3 hj with rfl | rfl | rfl <;> rfl
      rw [at_size] at hs q1 q2
      have : (2 : Int) ^ 20 = 4 * 2 ^ 18 := by norm_num
      rw [this]
      omega
    obtain ⟨⟨-, x1, x2⟩, ⟨-, y1, y2⟩, -, z1, z2⟩ := hh
    exact ⟨gen 0 (by omega) _ _ hsz.1 x1 x2, gen 1 (by omega) _ _ hsz.2.1 y1 y2, gen 2 (by omega) _ _ hsz.2.2 z1 z2⟩
  apply C61_mesh D tv hp
  · refine ⟨hnm, by omega, ?_, hh, ?_, Or.inl hx, hord, h1, h2⟩
    · intro b hbm
      obtain ⟨k, c0, c1, c2, c3⟩ := (hb b hbm).1
      omega
    · have : (2 : Int) ^ 20 ≤ 2 ^ 62 := by norm_num
      omega
  · intro dir hd
    have f1 := facePairs_le dir (mergedMesh sim ly tv pbox recs ss p)
    have f2 := facePairs_le dir (cells (mergedMesh sim ly tv pbox recs ss p))
    rw [cells_length'] at f2
    have g1 : (mergedMesh sim ly tv pbox recs ss p).length * 8 * ((mergedMesh sim ly tv pbox recs ss p).length * 8) ≤ 65528 * 65528 := Nat.mul_le_mul (by omega) (by omega)
    have g2 : (mergedMesh sim ly tv pbox recs ss p).length * (mergedMesh sim ly tv pbox recs ss p).length ≤ 8191 * 8191 := Nat.mul_le_mul hlen hlen
    constructor <;> omega

/-! ### A grid: a patch with a block of width 4, a patch with eight blocks of width 2 -/

def vgSim : Shamrock.Box Int := ⟨⟨0, 0, 0⟩, ⟨8, 4, 4⟩⟩
def vgLy : Gz.GLayout := ⟨[8, 8], [8]⟩
def vgTv : Gz.TVec := Gz.tvecOf .periodic .periodic .periodic
def vgSs : List Nat := [3, 7]
def vgPbox (S : Nat) : Shamrock.Box Int := if S = 3 then ⟨⟨0, 0, 0⟩, ⟨4, 4, 4⟩⟩ else ⟨⟨4, 0, 0⟩, ⟨8, 4, 4⟩⟩
def vgRecs (S : Nat) : List (Gz.GRec ℚ) :=
  if S = 3 then [⟨⟨0, 0, 0⟩, ⟨4, 4, 4⟩, fun q c => if q = 0 then 1 + c else 5 + c, fun _ c => ⟨1, c, -1⟩⟩]
  else (List.range 8).map fun (i : Nat) =>
    let p : V3 Int := ⟨4 + 2 * (i % 2 : Nat), 2 * (i / 2 % 2 : Nat), 2 * (i / 4 : Nat)⟩
    ⟨p, ⟨p.x + 2, p.y + 2, p.z + 2⟩, fun q c => if q = 0 then 1 + i + c else 9 + i, fun _ c => ⟨c, i, 1⟩⟩

theorem vg_boxes : ∀ S ∈ vgSs, ∀ r ∈ vgRecs S, ((boxOf r).hi.x = (boxOf r).lo.x + 2 * ((bwidth (boxOf r)) / 2) ∧ (boxOf r).hi.y = (boxOf r).lo.y + 2 * ((bwidth (boxOf r)) / 2) ∧
    (boxOf r).hi.z = (boxOf r).lo.z + 2 * ((bwidth (boxOf r)) / 2)) ∧ (bwidth (boxOf r) = 2 ∨ bwidth (boxOf r) = 4) ∧
    ∀ j < 3, bwidth (boxOf r) ∣ V3.at (boxOf r).lo j - V3.at vgSim.lower j ∧ bwidth (boxOf r) ∣ V3.at (sizeOfDom vgSim) j := by decide +kernel

theorem vg_domain : Domain vgSim vgLy vgPbox vgRecs vgSs := by
  refine ⟨by decide, by decide, by decide, ?_, ?_, ?_⟩
  · unfold Gz.Ordered Gz.InBoxC; decide
  · intro S hS r hr
    obtain ⟨h1, h2, -⟩ := vg_boxes S hS r hr
    have h3 : ∀ S ∈ vgSs, ∀ r ∈ vgRecs S, Gz.InBoxC r.box (vgPbox S) := by unfold Gz.InBoxC; decide +kernel
    exact ⟨⟨_, by rcases h2 with h2 | h2 <;> rw [h2] <;> norm_num, h1⟩, h3 S hS r hr⟩
  · have key : ∀ S ∈ vgSs, ∀ S' ∈ vgSs, ∀ i < (vgRecs S).length, ∀ i' < (vgRecs S').length, (S, i) ≠ (S', i') →
        volMeet (((vgRecs S).map boxOf).getD i box0) (((vgRecs S').map boxOf).getD i' box0) = false := by decide +kernel
    intro S hS S' hS' i i' r r' hr hr' hne
    have h := key S hS S' hS' i (List.getElem?_eq_some_iff.1 hr).1 i' (List.getElem?_eq_some_iff.1 hr').1 hne
    rw [List.getD_eq_getElem?_getD, List.getD_eq_getElem?_getD, List.getElem?_map, List.getElem?_map, hr, hr'] at h
    exact (apart_iff _ _).2 h

theorem vg_graded : Graded vgSs.length (gridOf vgRecs vgSs) (sizeOfDom vgSim) vgSim.lower := by
  have hb : ∀ p < vgSs.length, ∀ b ∈ gridOf vgRecs vgSs p, (bwidth b = 2 ∨ bwidth b = 4) ∧ ∀ j < 3, bwidth b ∣ V3.at b.lo j - V3.at vgSim.lower j ∧ bwidth b ∣ V3.at (sizeOfDom vgSim) j := by
    intro p hp b hb
    obtain ⟨r, hr, rfl⟩ := List.mem_map.1 hb
    exact (vg_boxes _ (idOf_mem hp) r hr).2
  refine ⟨fun p hp b h => (hb p hp b h).2, ?_⟩
  intro l l' h1 h2 h3 h4 _
  have w : ∀ l : Lab, l.1 < vgSs.length → l.2.1 < (gridOf vgRecs vgSs l.1).length → bwidth (blockAt (gridOf vgRecs vgSs) (sizeOfDom vgSim) l) = 2 ∨
      bwidth (blockAt (gridOf vgRecs vgSs) (sizeOfDom vgSim) l) = 4 := by
    intro l a1 a2
    have := (hb l.1 a1 _ (blk_mem a2)).1
    unfold bwidth at this ⊢
    unfold blockAt shiftBox
    dsimp only
    omega
  have w1 := w l h1 h3
  have w2 := w l' h2 h4
  omega

/-- A step of the second order scheme on this grid: both patches, any schedule. -/
example (junk : Nat → Nat → PState × PState) (sched : Nat → Nat → List Nat) : ∃ g new : Nat → _,
    (∀ p < 2, patchStep (exact fsq) ((exact fsq).flux (5 / 3) .rusanov) (5 / 3) (1 / 40) (1 / 20) (1 / 4) .vanLeerSym (junk p) (sched p) (mergedMesh vgSim vgLy vgTv vgPbox vgRecs vgSs p) (g p)
      (mergedCons vgSim vgLy vgTv vgPbox vgRecs vgSs p) (8 * (vgRecs (idOf vgSs p)).length) = some (new p)) ∧
    ∀ i, total (1 / 4) vgRecs vgSs new i = total (1 / 4) vgRecs vgSs (fun p => consList (vgRecs (idOf vgSs p))) i := by
  let env : Nat → BVHEnv Int := fun p => ⟨fun _ _ => [], [], fun _ => 0, List.range (mergedMesh vgSim vgLy vgTv vgPbox vgRecs vgSs p).length, List.replicate 64 [], List.replicate 64 [],
    fun _ => ⟨0, 0, 0⟩, fun _ => ⟨0, 0, 0⟩⟩
  have hM : ∀ p, ∃ lo hi, p < vgSs.length → MeshIn (env p) (mergedMesh vgSim vgLy vgTv vgPbox vgRecs vgSs p) lo hi := by
    intro p
    by_cases hp : p < vgSs.length
    · obtain ⟨lo, hi, h⟩ := C61_small_mesh (env := env p) vg_domain vgTv hp
        (by have hp' : p < 2 := hp
            interval_cases p <;> decide)
        (by decide) (by have hp' : p < 2 := hp
                        interval_cases p <;> decide) (List.Perm.refl _) rfl rfl
      exact ⟨lo, hi, fun _ => h⟩
    · exact ⟨⟨0, 0, 0⟩, ⟨0, 0, 0⟩, fun h => absurd h hp⟩
  choose lo hi hM using hM
  have hG : ∀ p, ∃ g, p < vgSs.length → Built (env p) (mergedMesh vgSim vgLy vgTv vgPbox vgRecs vgSs p) 2 g := by
    intro p
    by_cases hp : p < vgSs.length
    · obtain ⟨g, h⟩ := C59_built (hM p hp) 2
      exact ⟨g, fun _ => h⟩
    · exact ⟨fun _ => ⟨[], [], 0, 0, []⟩, fun h => absurd h hp⟩
  choose g hG using hG
  obtain ⟨new, h⟩ := C61_rusanov vg_domain vgTv hM hG (exact fsq) (odd_exact fsq) (5 / 3) (1 / 40) (1 / 20) (by norm_num : (0 : ℚ) < 1 / 4) .vanLeerSym (Or.inr vg_graded) junk sched
  exact ⟨g, new, h⟩

/-- The hypotheses of the HLL case. -/
example : ∀ S ∈ vgSs, ∀ r ∈ vgRecs S, ∀ c < 8, ((exact fsq).consToPrim (5 / 3) (consOf r c)).Phys := by decide +kernel

/-- The total is not trivial. -/
example : total (1 / 4) vgRecs vgSs (fun p => consList (vgRecs (idOf vgSs p))) 0 = 25 / 2 := by decide +kernel

end Shamrock.Fv
