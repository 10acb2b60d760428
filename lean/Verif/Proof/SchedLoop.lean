import Verif.Proof.SchedData
/-! The loops of the scheduler step. -/
namespace Shamrock

attribute [local irreducible] u64max getSplit

/-- All the splits of a step. -/
theorem splitPatches_ok {α F : Type} [LinearOrder F] {env : SchedEnv α F} {smin : V3 Nat} (he : EnvOk env smin) {W : Nat} (im : Nat → Nat) (junk : Nat → Nat) :
    ∀ (srq : List Nat) (s : Sched α), SplInv env smin W s → srq.Nodup →
    (∀ tid ∈ srq, ∃ n, s.tree.tree tid = some n ∧ n.isLeaf = true ∧ Splittable n.coord ∧ ∃ q, s.global[im n.linked]? = some q ∧ q.idPatch = n.linked) →
    s.tree.nextId + 8 * srq.length ≤ 2 ^ 32 →
    ∃ s', splitPatches env W im junk srq s = .ok s' ∧ SplInv env smin W s' ∧ s'.tree.nextId = s.tree.nextId + 8 * srq.length ∧
      (∀ y m, y ∉ srq → s.tree.tree y = some m → ∃ b, s'.tree.tree y = some { m with allLeafs := b }) ∧
      (allObj W s'.data).Perm (allObj W s.data) ∧ SameIds s.global s'.global ∧
      (s'.global.map (·.loadValue)).sum ≤ (s.global.map (·.loadValue)).sum ∧ s'.global.length = s.global.length + 7 * srq.length ∧
      ((∀ p ∈ s.global, p.packNodeIndex = u64max) → ∀ p ∈ s'.global, p.packNodeIndex = u64max) ∧
      s'.locals = s.locals ∧ s'.owned = s.owned ∧ s'.fresh = s.fresh ∧ Finer W s'.data s.data := by
  intro srq
  induction srq with
  | nil =>
    intro s H _ _ _
    exact ⟨s, rfl, H, by simp, fun y m _ hm => ⟨m.allLeafs, hm⟩, List.Perm.refl _, SameIds.refl _, le_refl _, by simp, fun h => h, rfl, rfl, rfl, Finer.refl _ _⟩
  | cons tid srq ih =>
    intro s H hn hq hN
    rw [List.length_cons] at hN
    rw [List.nodup_cons] at hn
    obtain ⟨n, n1, n2, n3, n4⟩ := hq tid List.mem_cons_self
    obtain ⟨s1, a1, a2, a3, a4, a5, a6, a7, a8, a9, a10, a11, a12, a13⟩ := splitOne_ok he H im (junk tid) tid n1 n2 n3 (by omega) n4
    obtain ⟨s2, b1, b2, b3, b4, b5, b6, b7, b8, b9, b10, b11, b12, b13⟩ := ih s1 a2 hn.2 (by
      intro t ht
      obtain ⟨m, m1, m2, m3, q, q1, q2⟩ := hq t (List.mem_cons_of_mem _ ht)
      obtain ⟨b, hb⟩ := a4 t m (fun e => hn.1 (e ▸ ht)) m1
      obtain ⟨q', r1, r2⟩ := a6 _ q q1
      exact ⟨_, hb, m2, m3, q', r1, r2.trans q2⟩) (by rw [a3]; omega)
    refine ⟨s2, by simp only [splitPatches, a1, Res.bind, b1], b2, by rw [b3, a3, List.length_cons]; omega, ?_, b5.trans a5, a6.trans b6, b7.trans a7, by rw [b8, a8, List.length_cons]; omega, fun h => b9 (a9 h),
      b10.trans a10, b11.trans a11, b12.trans a12, b13.trans a13⟩
    intro y m hy hm
    rw [List.mem_cons, not_or] at hy
    obtain ⟨b, hb⟩ := a4 y m hy.1 hm
    obtain ⟨b', hb'⟩ := b4 y _ hy.2 hb
    exact ⟨b', hb'⟩

/-! ### Lists with the same patches -/

theorem TLInv.congr {smin : V3 Nat} {t : PTree} {G G' : List Patch} (H : TLInv smin t G)
    (h1 : ∀ p ∈ G, ∃ q ∈ G', q.idPatch = p.idPatch ∧ q.coord = p.coord) (h2 : ∀ q ∈ G', ∃ p ∈ G, p.idPatch = q.idPatch) : TLInv smin t G' := by
  refine ⟨H.tinv, H.lev, H.coords, H.splits, H.inner, ?_, ?_, H.inj⟩
  · intro x n hx hl
    obtain ⟨p, p1, p2, p3⟩ := H.leafP x n hx hl
    obtain ⟨q, q1, q2, q3⟩ := h1 p p1
    exact ⟨q, q1, q2.trans p2, q3.trans p3⟩
  · intro q hq
    obtain ⟨p, p1, p2⟩ := h2 q hq
    obtain ⟨x, n, n1, n2, n3⟩ := H.patchL p p1
    exact ⟨x, n, n1, n2, n3.trans p2⟩

theorem TLInv.perm {smin : V3 Nat} {t : PTree} {G G' : List Patch} (H : TLInv smin t G) (h : G.Perm G') : TLInv smin t G' :=
  H.congr (fun p hp => ⟨p, h.mem_iff.1 hp, rfl, rfl⟩) (fun q hq => ⟨q, h.mem_iff.2 hq, rfl⟩)

/-- The id, owner and box of a patch. -/
def patchKey (p : Patch) : Nat × Nat × PatchCoord := (p.idPatch, p.nodeOwnerId, p.coord)

theorem TLInv.congrKey {smin : V3 Nat} {t : PTree} {G G' : List Patch} (H : TLInv smin t G) (h : (G.map patchKey).Perm (G'.map patchKey)) : TLInv smin t G' := by
  refine H.congr (fun p hp => ?_) (fun q hq => ?_)
  · obtain ⟨q, q1, q2⟩ := List.mem_map.1 (h.mem_iff.1 (List.mem_map_of_mem (f := patchKey) hp))
    simp only [patchKey, Prod.mk.injEq] at q2
    exact ⟨q, q1, q2.1, q2.2.2⟩
  · obtain ⟨p, p1, p2⟩ := List.mem_map.1 (h.mem_iff.2 (List.mem_map_of_mem (f := patchKey) hq))
    simp only [patchKey, Prod.mk.injEq] at p2
    exact ⟨p, p1, p2.1⟩

theorem DInv.congrKey {α : Type} {W : Nat} {lay : List Nat} {inBox : PatchCoord → List (List α) → Prop} {G G' : List Patch} {data : Nat → RankData α}
    (H : DInv W lay inBox G data) (h : (G.map patchKey).Perm (G'.map patchKey)) : DInv W lay inBox G' data := by
  have h1 : ∀ p ∈ G, ∃ q ∈ G', q.idPatch = p.idPatch ∧ q.nodeOwnerId = p.nodeOwnerId ∧ q.coord = p.coord := by
    intro p hp
    obtain ⟨q, q1, q2⟩ := List.mem_map.1 (h.mem_iff.1 (List.mem_map_of_mem (f := patchKey) hp))
    simp only [patchKey, Prod.mk.injEq] at q2
    exact ⟨q, q1, q2⟩
  have h2 : ∀ q ∈ G', ∃ p ∈ G, p.idPatch = q.idPatch ∧ p.nodeOwnerId = q.nodeOwnerId ∧ p.coord = q.coord := by
    intro q hq
    obtain ⟨p, p1, p2⟩ := List.mem_map.1 (h.mem_iff.2 (List.mem_map_of_mem (f := patchKey) hq))
    simp only [patchKey, Prod.mk.injEq] at p2
    exact ⟨p, p1, p2⟩
  refine ⟨⟨H.owned.maps, ?_, ?_, ?_⟩, H.good, ?_⟩
  · have e : ∀ G : List Patch, G.map (·.idPatch) = (G.map patchKey).map (·.1) := fun G => by rw [List.map_map]; rfl
    rw [e G', ← ((h.map (·.1)).nodup_iff), ← e G]
    exact H.owned.ids
  · intro q hq
    obtain ⟨p, p1, p2, p3, p4⟩ := h2 q hq
    have := H.owned.owner p p1
    rw [p2, p3] at this
    exact this
  · intro r hr id d hd
    obtain ⟨p, p1, p2, p3⟩ := H.owned.only r hr id d hd
    obtain ⟨q, q1, q2, q3, -⟩ := h1 p p1
    exact ⟨q, q1, q2.trans p2, q3.trans p3⟩
  · intro q hq l hl
    obtain ⟨p, p1, p2, p3, p4⟩ := h2 q hq
    rw [← p4]
    rw [← p2, ← p3] at hl
    exact H.place p p1 l hl

/-! ### Packing -/

theorem setPack_spec (k : Nat) : ∀ (is : List Nat) (g : List Patch), (∀ i ∈ is, i < g.length) →
    ∃ g', setPack k is g = .ok g' ∧ g'.length = g.length ∧ ∀ i : Nat, g'[i]? = (g[i]?).map (fun p => if i ∈ is then { p with packNodeIndex := k } else p) := by
  intro is
  induction is with
  | nil => intro g _; exact ⟨g, rfl, rfl, fun i => by simp⟩
  | cons j is ih =>
    intro g h
    have hj := h j List.mem_cons_self
    obtain ⟨p, hp⟩ : ∃ p, g[j]? = some p := ⟨g[j], List.getElem?_eq_getElem hj⟩
    obtain ⟨g', a, b, c⟩ := ih (g.set j { p with packNodeIndex := k }) (fun i hi => by rw [List.length_set]; exact h i (List.mem_cons_of_mem _ hi))
    refine ⟨g', by simp only [setPack, hp, a], by rw [b, List.length_set], fun i => ?_⟩
    rw [c i]
    by_cases e : j = i
    · subst e
      rw [List.getElem?_set_self hj, hp]
      simp
    · rw [List.getElem?_set_ne e]
      have : (i ∈ j :: is) ↔ i ∈ is := by
        rw [List.mem_cons]; exact ⟨fun h => h.resolve_left (fun h => e h.symm), Or.inr⟩
      simp only [this]

/-- The packing of the patches that will be merged. `ix tid` are the indexes of the patches of the children of the node `tid`. -/
theorem setPackValues_spec (im : Nat → Nat) (t : PTree) (ix : Nat → List Nat) : ∀ (mrq : List Nat) (g : List Patch),
    (∀ tid ∈ mrq, ∃ nd ids, t.tree tid = some nd ∧ linksOf t nd.childs = .ok ids ∧ ids.map im = ix tid ∧ ix tid ≠ [] ∧ ∀ i ∈ ix tid, i < g.length) →
    mrq.Nodup → (∀ a ∈ mrq, ∀ b ∈ mrq, a ≠ b → ∀ i ∈ ix a, i ∉ ix b) → (∀ a ∈ mrq, (ix a).Nodup) →
    ∃ g', setPackValues im t mrq g = .ok g' ∧ g'.length = g.length ∧ g'.map patchKey = g.map patchKey ∧ g'.map (·.loadValue) = g.map (·.loadValue) ∧
      (∀ tid ∈ mrq, ∀ i0 rest, ix tid = i0 :: rest → ∀ i ∈ rest, ∃ p, g'[i]? = some p ∧ p.packNodeIndex = i0) ∧
      (∀ i : Nat, (∀ tid ∈ mrq, i ∉ (ix tid).tail) → g'[i]? = g[i]?) := by
  intro mrq
  induction mrq with
  | nil => intro g _ _ _ _; exact ⟨g, rfl, rfl, rfl, rfl, fun tid h => absurd h List.not_mem_nil, fun i _ => rfl⟩
  | cons tid mrq ih =>
    intro g h hn hd hnx
    rw [List.nodup_cons] at hn
    obtain ⟨nd, ids, a1, a2, a3, a4, a5⟩ := h tid List.mem_cons_self
    cases ids with
    | nil => exact absurd a3.symm a4
    | cons id0 rest =>
      rw [List.map_cons] at a3
      obtain ⟨g1, b1, b2, b3⟩ := setPack_spec (im id0) (rest.map im) g (fun i hi => a5 i (by rw [← a3]; exact List.mem_cons_of_mem _ hi))
      obtain ⟨g2, c1, c2, c3, c4, c5, c6⟩ := ih g1 (fun x hx => by
          obtain ⟨nd, ids, e1, e2, e3, e4, e5⟩ := h x (List.mem_cons_of_mem _ hx)
          exact ⟨nd, ids, e1, e2, e3, e4, fun i hi => by rw [b2]; exact e5 i hi⟩) hn.2
        (fun a ha b hb => hd a (List.mem_cons_of_mem _ ha) b (List.mem_cons_of_mem _ hb)) (fun a ha => hnx a (List.mem_cons_of_mem _ ha))
      have hk1 : ∀ {β : Type} (f : Patch → β), (∀ (p : Patch) k, f { p with packNodeIndex := k } = f p) → g1.map f = g.map f := by
        intro β f hf
        apply List.ext_getElem?
        intro i
        rw [List.getElem?_map, List.getElem?_map, b3, Option.map_map]
        cases g[i]? with
        | none => rfl
        | some p =>
          simp only [Option.map_some, Function.comp]
          by_cases hm : i ∈ rest.map im
          · rw [if_pos hm, hf]
          · rw [if_neg hm]
      refine ⟨g2, ?_, c2.trans b2, c3.trans (hk1 _ (fun _ _ => rfl)), c4.trans (hk1 _ (fun _ _ => rfl)), ?_, ?_⟩
      · simp only [setPackValues, a1, a2, Res.bind, b1]
        exact c1
      · intro x hx i0 rs hix i hi
        rcases List.mem_cons.1 hx with rfl | hx
        · rw [← a3, List.cons.injEq] at hix
          obtain ⟨rfl, rfl⟩ := hix
          have hilt : i < g.length := a5 i (by rw [← a3]; exact List.mem_cons_of_mem _ hi)
          refine ⟨{ g[i] with packNodeIndex := im id0 }, ?_, rfl⟩
          rw [c6 i (fun y hy hin => ?_), b3, List.getElem?_eq_getElem hilt]
          · simp only [Option.map_some]
            rw [if_pos hi]
          · have hne : x ≠ y := fun e => hn.1 (e ▸ hy)
            exact hd x List.mem_cons_self y (List.mem_cons_of_mem _ hy) hne i (by rw [← a3]; exact List.mem_cons_of_mem _ hi) (List.mem_of_mem_tail hin)
        · exact c5 x hx i0 rs hix i hi
      · intro i hi
        rw [c6 i (fun y hy => hi y (List.mem_cons_of_mem _ hy)), b3]
        have : i ∉ rest.map im := by
          have := hi tid List.mem_cons_self
          rw [← a3] at this
          exact this
        simp only [this, if_false, Option.map_id']

end Shamrock
