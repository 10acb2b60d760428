import Verif.Proof.FvTileRow
import Verif.Props.AmrGhost
/-! The merged patches of the ghost stages on a periodic domain form a tiling. -/
namespace Shamrock.Fv
open Amr

/-! ### Specification -/

/-- The box of a block. -/
def boxOf (r : Gz.GRec ℚ) : Amr.Box := ⟨r.lo, r.hi⟩

/-- The conserved state of cell `c` of a block: density, energy and momentum are the first two scalar fields and the first vector field. -/
def consOf (r : Gz.GRec ℚ) (c : Nat) : CState := ⟨r.scal 0 c, r.scal 1 c, r.vecs 0 c⟩

/-- The conserved fields of blocks, eight cells each. -/
def consList (rs : List (Gz.GRec ℚ)) : List CState := rs.flatMap fun (r : Gz.GRec ℚ) => (List.range 8).map (consOf r)

/-- Periodic boundaries. -/
def per : Gz.GMode := Gz.modeOf .periodic .periodic .periodic

/-- The distributed grid: patches `ss` with their boxes, inside the domain, and their blocks: cubes of even width, inside their patch, without overlap. -/
structure Domain (sim : Shamrock.Box Int) (ly : Gz.GLayout) (pbox : Nat → Shamrock.Box Int) (recs : Nat → List (Gz.GRec ℚ)) (ss : List Nat) : Prop where
  pos : sim.lower.x < sim.upper.x ∧ sim.lower.y < sim.upper.y ∧ sim.lower.z < sim.upper.z
  fields : ly.scal[0]? = some 8 ∧ ly.scal[1]? = some 8 ∧ ly.vecs[0]? = some 8
  nodup : ss.Nodup
  box : ∀ S ∈ ss, Gz.Ordered (pbox S) ∧ Gz.InBoxC (pbox S) sim
  blocks : ∀ S ∈ ss, ∀ r ∈ recs S, Cube2 (boxOf r) ∧ Gz.InBoxC r.box (pbox S)
  apart : ∀ S ∈ ss, ∀ S' ∈ ss, ∀ (i i' : Nat) r r', (recs S)[i]? = some r → (recs S')[i']? = some r' → (S, i) ≠ (S', i') → Apart (boxOf r) (boxOf r')

/-- Size of the domain. -/
def sizeOfDom (sim : Shamrock.Box Int) : V3 Int := ⟨sim.upper.x - sim.lower.x, sim.upper.y - sim.lower.y, sim.upper.z - sim.lower.z⟩

/-- Identifier of patch number `p`. -/
def idOf (ss : List Nat) (p : Nat) : Nat := ss.getD p 0

/-- The blocks of patch number `p`, as boxes. -/
def gridOf (recs : Nat → List (Gz.GRec ℚ)) (ss : List Nat) (p : Nat) : List Amr.Box := (recs (idOf ss p)).map boxOf

/-! ### Proofs -/

theorem flipCell_one (c : Nat) (hc : c < 8) : Gz.flipCell ⟨1, 1, 1⟩ c = c := by
  interval_cases c <;> decide

theorem per_signs (k : V3 Int) : Gz.signs per k = ⟨1, 1, 1⟩ := by
  unfold Gz.signs Gz.axisSign per Gz.modeOf
  simp [Gz.BCond.geom]

theorem per_image (sim : Shamrock.Box Int) (v k : V3 Int) : Gz.image per sim v k = addV v (mulV k (sizeOfDom sim)) := by
  unfold Gz.image Gz.axisImage per Gz.modeOf addV mulV sizeOfDom
  simp only [Gz.BCond.geom, true_or, ↓reduceIte, V3.mk.injEq]
  refine ⟨?_, ?_, ?_⟩ <;> ring

theorem per_box (ly : Gz.GLayout) (sim : Shamrock.Box Int) (turn : Bool) (k : V3 Int) (r : Gz.GRec ℚ) :
    boxOf (r.image ly per sim turn k) = shiftBox (boxOf r) (mulV k (sizeOfDom sim)) := by
  unfold boxOf Gz.GRec.image Gz.imageBox Gz.axisBox Gz.axisSign Gz.axisImage per Gz.modeOf shiftBox mulV sizeOfDom
  simp only [Gz.BCond.geom, true_or, ↓reduceIte, Gz.GRec.box, Amr.Box.mk.injEq, V3.mk.injEq]
  refine ⟨⟨?_, ?_, ?_⟩, ?_, ?_, ?_⟩ <;> ring

theorem per_cons (ly : Gz.GLayout) (hl : ly.scal[0]? = some 8 ∧ ly.scal[1]? = some 8 ∧ ly.vecs[0]? = some 8) (sim : Shamrock.Box Int) (turn : Bool) (k : V3 Int)
    (r : Gz.GRec ℚ) (c : Nat) (hc : c < 8) : consOf (r.image ly per sim turn k) c = consOf r c := by
  have hre : Gz.reidx ⟨1, 1, 1⟩ 8 c = c := by
    unfold Gz.reidx
    rw [if_neg (by decide)]
    show Gz.flipCell _ (c / 1) * 1 + c % 1 = c
    rw [Nat.div_one, flipCell_one c hc, Nat.mod_one]
    omega
  obtain ⟨h1, h2, h3⟩ := hl
  unfold consOf Gz.GRec.image
  simp only [per_signs, List.getD_eq_getElem?_getD, h1, h2, h3, Option.getD_some, hre]
  congr 1
  have : ∀ v : V3 ℚ, Gz.mulCompo ⟨1, 1, 1⟩ v = v := by
    intro v
    unfold Gz.mulCompo
    simp
  rw [this]
  split <;> rfl

theorem per_touch (sim b c : Shamrock.Box Int) (hb : Gz.Ordered b) (hc : Gz.Ordered c) (k : V3 Int) :
    Gz.ImageTouches per sim b c k ↔ Meets (shiftBox ⟨b.lower, b.upper⟩ (mulV k (sizeOfDom sim))) ⟨c.lower, c.upper⟩ := by
  have ax : ∀ a b c d s : Int, a ≤ b → c ≤ d → (a + s ≤ d ∧ c ≤ b + s) → ∃ x, (a ≤ x ∧ x ≤ b) ∧ (c ≤ x + s ∧ x + s ≤ d) := by
    intro a b c d s h1 h2 h3
    exact ⟨max a (c - s), by omega, by omega⟩
  unfold Gz.ImageTouches
  simp only [per_image]
  unfold Gz.InClosed
  constructor
  · rintro ⟨v, ⟨⟨a1, a2⟩, ⟨a3, a4⟩, a5, a6⟩, ⟨b1, b2⟩, ⟨b3, b4⟩, b5, b6⟩
    simp only [addV] at b1 b2 b3 b4 b5 b6
    intro j hj
    rcases lt3 hj with rfl | rfl | rfl <;> simp only [V3.at, shiftBox] <;> omega
  · intro h
    have h0 := h 0 (by omega); have h1 := h 1 (by omega); have h2 := h 2 (by omega)
    simp only [V3.at, shiftBox] at h0 h1 h2
    obtain ⟨o1, o2, o3⟩ := hb
    obtain ⟨p1, p2, p3⟩ := hc
    obtain ⟨x, x1, x2⟩ := ax _ _ _ _ _ o1 p1 h0
    obtain ⟨y, y1, y2⟩ := ax _ _ _ _ _ o2 p2 h1
    obtain ⟨z, z1, z2⟩ := ax _ _ _ _ _ o3 p3 h2
    exact ⟨⟨x, y, z⟩, ⟨x1, y1, z1⟩, x2, y2, z2⟩

theorem consList_length (rs : List (Gz.GRec ℚ)) : (consList rs).length = rs.length * 8 := by
  unfold consList
  induction rs with
  | nil => rfl
  | cons r rs ih => rw [List.flatMap_cons, List.length_append, ih]; simp; omega

theorem consList_get (rs : List (Gz.GRec ℚ)) (d : Nat) : (consList rs)[d]? = (rs[d / 8]?).map fun r => consOf r (d % 8) := by
  induction rs generalizing d with
  | nil => simp [consList]
  | cons r rs ih =>
    unfold consList at ih ⊢
    rw [List.flatMap_cons]
    by_cases hd : d < 8
    · rw [List.getElem?_append_left (by simpa using hd), List.getElem?_map, List.getElem?_range hd, show d / 8 = 0 by omega, show d % 8 = d by omega]
      rfl
    · rw [List.getElem?_append_right (by simp; omega), List.length_map, List.length_range, ih, show d / 8 = (d - 8) / 8 + 1 by omega, List.getElem?_cons_succ,
        show (d - 8) % 8 = d % 8 by omega]

/-- Images of the blocks of the domain do not overlap. -/
theorem apart_tiles {sim : Shamrock.Box Int} {A B : Amr.Box} (hA : ∀ j < 3, V3.at sim.lower j ≤ V3.at A.lo j ∧ V3.at A.hi j ≤ V3.at sim.upper j)
    (hB : ∀ j < 3, V3.at sim.lower j ≤ V3.at B.lo j ∧ V3.at B.hi j ≤ V3.at sim.upper j) {k k' : V3 Int} (h : k ≠ k' ∨ Apart A B) :
    Apart (shiftBox A (mulV k (sizeOfDom sim))) (shiftBox B (mulV k' (sizeOfDom sim))) := by
  have at_size : ∀ j < 3, V3.at (sizeOfDom sim) j = V3.at sim.upper j - V3.at sim.lower j := by
    intro j hj
    rcases lt3 hj with rfl | rfl | rfl <;> rfl
  have ins : ∀ (C : Amr.Box) p, Inside C p ↔ ∀ j < 3, V3.at C.lo j ≤ V3.at p j ∧ V3.at p j < V3.at C.hi j := by
    intro C p
    unfold Inside
    constructor
    · rintro ⟨a, b, c, d, e, f⟩ j hj
      rcases lt3 hj with rfl | rfl | rfl
      exacts [⟨a, b⟩, ⟨c, d⟩, ⟨e, f⟩]
    · intro h
      have h0 := h 0 (by omega); have h1 := h 1 (by omega); have h2 := h 2 (by omega)
      exact ⟨h0.1, h0.2, h1.1, h1.2, h2.1, h2.2⟩
  rintro p ⟨h1, h2⟩
  rw [ins] at h1 h2
  simp only [at_shift, at_mulV] at h1 h2
  by_cases hk : k = k'
  · subst hk
    rcases h with h | h
    · exact h rfl
    refine h ⟨p.x - k.x * (sizeOfDom sim).x, p.y - k.y * (sizeOfDom sim).y, p.z - k.z * (sizeOfDom sim).z⟩ ⟨?_, ?_⟩ <;> rw [ins] <;> intro j hj
    · have := h1 j hj
      rcases lt3 hj with rfl | rfl | rfl <;> simp only [V3.at] at this ⊢ <;> omega
    · have := h2 j hj
      rcases lt3 hj with rfl | rfl | rfl <;> simp only [V3.at] at this ⊢ <;> omega
  · have : ∃ j < 3, V3.at k j ≠ V3.at k' j := by
      by_contra hc
      push Not at hc
      apply hk
      obtain ⟨a, b, c⟩ := k
      obtain ⟨a', b', c'⟩ := k'
      have h0 := hc 0 (by omega); have h1 := hc 1 (by omega); have h2 := hc 2 (by omega)
      simp only [V3.at] at h0 h1 h2
      rw [h0, h1, h2]
    obtain ⟨j, hj, hne⟩ := this
    have a1 := h1 j hj; have a2 := h2 j hj; have a3 := hA j hj; have a4 := hB j hj
    rw [at_size j hj] at a1 a2
    generalize V3.at sim.upper j = U at *
    generalize V3.at sim.lower j = l at *
    generalize V3.at k j = x at *
    generalize V3.at k' j = y at *
    have hU : 0 ≤ U - l := by omega
    rcases lt_or_gt_of_ne hne with hxy | hxy
    · have : (x + 1) * (U - l) ≤ y * (U - l) := mul_le_mul_of_nonneg_right (by omega) hU
      rw [add_mul, one_mul] at this
      omega
    · have : (y + 1) * (U - l) ≤ x * (U - l) := mul_le_mul_of_nonneg_right (by omega) hU
      rw [add_mul, one_mul] at this
      omega

theorem at_inBox {a b : Shamrock.Box Int} (h : Gz.InBoxC a b) : ∀ j < 3, V3.at b.lower j ≤ V3.at a.lower j ∧ V3.at a.upper j ≤ V3.at b.upper j := by
  intro j hj
  obtain ⟨h0, h1, h2⟩ := h
  rcases lt3 hj with rfl | rfl | rfl
  exacts [h0, h1, h2]

theorem idOf_mem {ss : List Nat} {p : Nat} (hp : p < ss.length) : idOf ss p ∈ ss := by
  unfold idOf
  rw [List.getD_eq_getElem?_getD, List.getElem?_eq_getElem hp]; exact List.getElem_mem hp

theorem idOf_idxOf {ss : List Nat} {S : Nat} (h : S ∈ ss) : idOf ss (ss.idxOf S) = S := by
  unfold idOf
  rw [List.getD_eq_getElem?_getD, List.getElem?_eq_getElem (List.idxOf_lt_length_of_mem h)]
  exact List.getElem_idxOf _

theorem idxOf_idOf {ss : List Nat} (hn : ss.Nodup) {p : Nat} (hp : p < ss.length) : ss.idxOf (idOf ss p) = p := by
  have e1 : idOf ss p = ss[p] := by
    unfold idOf
    rw [List.getD_eq_getElem?_getD, List.getElem?_eq_getElem hp, Option.getD_some]
  rw [e1]
  exact hn.idxOf_getElem p hp

/-- The labels of the blocks of a merged patch. -/
theorem merged_labels {sim : Shamrock.Box Int} {ly : Gz.GLayout} {pbox : Nat → Shamrock.Box Int} {recs : Nat → List (Gz.GRec ℚ)} {ss : List Nat}
    (D : Domain sim ly pbox recs ss) (tv : Gz.TVec) {p : Nat} (hp : p < ss.length) :
    ∃ lab : List Lab, lab.Nodup ∧
      (∀ l : Lab, l ∈ lab ↔ l.1 < ss.length ∧ l.2.1 < (gridOf recs ss l.1).length ∧
        Meets (blockAt (gridOf recs ss) (sizeOfDom sim) l) ⟨(pbox (idOf ss p)).lower, (pbox (idOf ss p)).upper⟩) ∧
      (∀ i < (gridOf recs ss p).length, lab[i]? = some (p, i, origin)) ∧
      lab.length = (Gz.mergedBlocks ly per sim tv pbox recs ss (idOf ss p)).length ∧
      ∀ (j : Nat) l r, lab[j]? = some l → (Gz.mergedBlocks ly per sim tv pbox recs ss (idOf ss p))[j]? = some r →
        boxOf r = blockAt (gridOf recs ss) (sizeOfDom sim) l ∧ ∃ r0, (recs (idOf ss l.1))[l.2.1]? = some r0 ∧ ∀ c < 8, consOf r c = consOf r0 c := by
  have hR := idOf_mem hp
  have hord : ∀ S ∈ ss, ∀ r ∈ recs S, Gz.Ordered r.box := by
    intro S hS r hr
    obtain ⟨k, h0, h1, h2, h3⟩ := (D.blocks S hS r hr).1
    simp only [boxOf] at h1 h2 h3
    refine ⟨?_, ?_, ?_⟩ <;> simp only [Gz.GRec.box] <;> omega
  have hsim : ∀ S ∈ ss, ∀ r ∈ recs S, Gz.InBoxC r.box sim := by
    intro S hS r hr
    have a := (D.blocks S hS r hr).2
    have b := (D.box S hS).2
    obtain ⟨⟨a1, a2⟩, ⟨a3, a4⟩, a5, a6⟩ := a
    obtain ⟨⟨b1, b2⟩, ⟨b3, b4⟩, b5, b6⟩ := b
    refine ⟨⟨?_, ?_⟩, ⟨?_, ?_⟩, ?_, ?_⟩ <;> omega
  obtain ⟨labels, n1, n2, n3⟩ := Gz.C60_images ly per sim D.pos tv pbox recs ss D.nodup (idOf ss p) (D.box _ hR).2 hsim
  let own : List Lab := (List.range (recs (idOf ss p)).length).map fun i => (p, i, origin)
  let tr : Nat × Nat × V3 Int → Lab := fun l => (ss.idxOf l.1, l.2.1, l.2.2)
  have hbl : ∀ (l : Lab) r0, (recs (idOf ss l.1))[l.2.1]? = some r0 → (gridOf recs ss l.1).getD l.2.1 box0 = boxOf r0 := by
    intro l r0 h
    unfold gridOf
    rw [List.getD_eq_getElem?_getD, List.getElem?_map, h]; rfl
  have hlen : ∀ q, (gridOf recs ss q).length = (recs (idOf ss q)).length := fun q => by unfold gridOf; rw [List.length_map]
  have hown : ∀ l : Lab, l ∈ own ↔ l.1 = p ∧ l.2.2 = origin ∧ l.2.1 < (recs (idOf ss p)).length := by
    intro l
    obtain ⟨a, b, c⟩ := l
    simp only [own, List.mem_map, List.mem_range, Prod.mk.injEq]
    constructor
    · rintro ⟨i, hi, rfl, rfl, rfl⟩; exact ⟨rfl, rfl, hi⟩
    · rintro ⟨rfl, rfl, h⟩; exact ⟨b, h, rfl, rfl, rfl⟩
  have htr : ∀ l ∈ labels, l.1 ∈ ss ∧ ∃ r, (recs l.1)[l.2.1]? = some r ∧ Gz.ImageTouches per sim r.box (pbox (idOf ss p)) l.2.2 := by
    intro l hl
    obtain ⟨S, i, k⟩ := l
    obtain ⟨h1, -, -, h4⟩ := (n2 S i k).1 hl
    exact ⟨h1, h4⟩
  have hinj : ∀ l ∈ labels, ∀ l' ∈ labels, tr l = tr l' → l = l' := by
    intro l hl l' hl' e
    obtain ⟨a, b, c⟩ := l
    obtain ⟨a', b', c'⟩ := l'
    simp only [tr, Prod.mk.injEq] at e
    obtain ⟨e1, rfl, rfl⟩ := e
    have := congrArg (idOf ss) e1
    rw [idOf_idxOf (htr _ hl).1, idOf_idxOf (htr _ hl').1] at this
    simp only [Prod.mk.injEq, and_true]
    exact this
  have hmap : ∃ g : Nat × Nat × V3 Int → Gz.GRec ℚ, (∀ l ∈ labels, ∀ r0, (recs l.1)[l.2.1]? = some r0 → g l = r0.image ly per sim (Gz.turnOf tv l.2.2) l.2.2) ∧
      Gz.mergedBlocks ly per sim tv pbox recs ss (idOf ss p) = recs (idOf ss p) ++ labels.map g := by
    refine ⟨fun l => (((recs l.1)[l.2.1]?).map (Gz.GRec.image ly per sim (Gz.turnOf tv l.2.2) l.2.2)).getD ⟨origin, origin, fun _ _ => 0, fun _ _ => ⟨0, 0, 0⟩⟩, ?_, ?_⟩
    · intro l _ r0 h
      dsimp only
      rw [h]; rfl
    · rw [n3]
      congr 1
      clear n1 n2 n3 hinj
      induction labels with
      | nil => rfl
      | cons l ls ih =>
        obtain ⟨-, r, hr, -⟩ := htr l (by simp)
        rw [List.filterMap_cons, List.map_cons, hr, Option.map_some]
        dsimp only
        rw [ih (fun l hl => htr l (by simp [hl]))]
        rfl
  obtain ⟨g, g1, g2⟩ := hmap
  have hwithin : ∀ q < ss.length, ∀ i < (gridOf recs ss q).length, Within ((gridOf recs ss q).getD i box0) ⟨(pbox (idOf ss q)).lower, (pbox (idOf ss q)).upper⟩ := by
    intro q hq i hi
    rw [hlen] at hi
    obtain ⟨r, hr⟩ : ∃ r, (recs (idOf ss q))[i]? = some r := ⟨_, List.getElem?_eq_getElem hi⟩
    rw [hbl (q, i, origin) r hr]
    exact at_inBox (D.blocks _ (idOf_mem hq) r (List.mem_of_getElem? hr)).2
  have htouch : ∀ S ∈ ss, ∀ r ∈ recs S, ∀ k, Gz.ImageTouches per sim r.box (pbox (idOf ss p)) k ↔
      Meets (shiftBox (boxOf r) (mulV k (sizeOfDom sim))) ⟨(pbox (idOf ss p)).lower, (pbox (idOf ss p)).upper⟩ := by
    intro S hS r hr k
    exact per_touch sim r.box (pbox (idOf ss p)) (hord S hS r hr) (D.box _ hR).1 k
  refine ⟨own ++ labels.map tr, ?_, ?_, ?_, ?_, ?_⟩
  · rw [List.nodup_append]
    refine ⟨?_, ?_, ?_⟩
    · apply List.Nodup.map _ List.nodup_range
      intro a b e
      simp only [Prod.mk.injEq, true_and, and_true] at e
      exact e
    · exact List.Nodup.map_on hinj n1
    · intro a ha b hb e
      subst e
      obtain ⟨l, hl, rfl⟩ := List.mem_map.1 hb
      obtain ⟨h1, h2, h3⟩ := (hown _).1 ha
      obtain ⟨S, i, k⟩ := l
      obtain ⟨hS, hne, -, -⟩ := (n2 S i k).1 hl
      apply hne
      simp only [tr] at h1 h2
      refine ⟨?_, h2⟩
      rw [← h1, idOf_idxOf hS]
  · intro l
    obtain ⟨q, i, k⟩ := l
    rw [List.mem_append, hown, List.mem_map]
    constructor
    · rintro (⟨rfl, h2, h3⟩ | ⟨⟨S, i', k'⟩, hl, e⟩)
      · simp only at h2 h3
        subst h2
        refine ⟨hp, by rw [hlen]; exact h3, ?_⟩
        rw [blockAt_own]
        have hw := hwithin q hp i (by rw [hlen]; exact h3)
        obtain ⟨r, hr⟩ : ∃ r, (recs (idOf ss q))[i]? = some r := ⟨_, List.getElem?_eq_getElem h3⟩
        rw [hbl (q, i, origin) r hr] at hw ⊢
        obtain ⟨k, k0, -, k1, -⟩ := cube_axis (D.blocks _ hR r (List.mem_of_getElem? hr)).1
        intro j hj
        have a1 := hw j hj
        have a2 := k1 j hj
        simp only at a1 ⊢
        omega
      · simp only [tr, Prod.mk.injEq] at e
        obtain ⟨rfl, rfl, rfl⟩ := e
        obtain ⟨hS, r, hr, ht⟩ := htr _ hl
        simp only at hS hr ht
        refine ⟨List.idxOf_lt_length_of_mem hS, ?_, ?_⟩
        · rw [hlen, idOf_idxOf hS]
          exact (List.getElem?_eq_some_iff.1 hr).1
        · unfold blockAt
          rw [hbl (ss.idxOf S, i', k') r (by simp only [idOf_idxOf hS]; exact hr)]
          exact (htouch S hS r (List.mem_of_getElem? hr) k').1 ht
    · rintro ⟨h1, h2, h3⟩
      simp only at h1 h2
      rw [hlen] at h2
      by_cases hz : q = p ∧ k = origin
      · obtain ⟨rfl, rfl⟩ := hz
        exact Or.inl ⟨rfl, rfl, h2⟩
      · refine Or.inr ⟨(idOf ss q, i, k), (n2 _ _ _).2 ⟨idOf_mem h1, ?_, ?_, ?_⟩, ?_⟩
        · rintro ⟨e1, e2⟩
          exact hz ⟨by rw [← idxOf_idOf D.nodup h1, e1, idxOf_idOf D.nodup hp], e2⟩
        · unfold per Gz.modeOf Gz.AxisOpen
          simp [Gz.BCond.geom]
        · obtain ⟨r, hr⟩ : ∃ r, (recs (idOf ss q))[i]? = some r := ⟨_, List.getElem?_eq_getElem h2⟩
          refine ⟨r, hr, (htouch _ (idOf_mem h1) r (List.mem_of_getElem? hr) k).2 ?_⟩
          unfold blockAt at h3
          rw [hbl (q, i, k) r hr] at h3
          exact h3
        · simp only [tr, Prod.mk.injEq, and_true]
          exact idxOf_idOf D.nodup h1
  · intro i hi
    rw [hlen] at hi
    rw [List.getElem?_append_left (by simpa [own] using hi)]
    simp only [own, List.getElem?_map, List.getElem?_range hi, Option.map_some]
  · rw [g2]
    simp [own]
  · intro j l r hl hr
    rw [g2] at hr
    by_cases hj : j < (recs (idOf ss p)).length
    · rw [List.getElem?_append_left hj] at hr
      rw [List.getElem?_append_left (by simpa [own] using hj)] at hl
      simp only [own, List.getElem?_map, List.getElem?_range hj, Option.map_some, Option.some.injEq] at hl
      subst hl
      refine ⟨?_, r, hr, fun _ _ => rfl⟩
      rw [blockAt_own, hbl (p, j, origin) r hr]
    · rw [List.getElem?_append_right (by omega)] at hr
      rw [List.getElem?_append_right (by simp [own]; omega), show own.length = (recs (idOf ss p)).length by simp [own]] at hl
      rw [List.getElem?_map] at hl hr
      generalize j - (recs (idOf ss p)).length = t at hl hr
      rcases hlt : labels[t]? with _ | l0
      · rw [hlt] at hl; simp at hl
      rw [hlt, Option.map_some, Option.some.injEq] at hl hr
      have hm := List.mem_of_getElem? hlt
      obtain ⟨hS, r0, hr0, -⟩ := htr _ hm
      have e := g1 l0 hm r0 hr0
      rw [hr] at e
      subst hl
      have h0 : (recs (idOf ss (tr l0).1))[(tr l0).2.1]? = some r0 := by
        simp only [tr, idOf_idxOf hS]; exact hr0
      refine ⟨?_, r0, h0, ?_⟩
      · rw [e, per_box]
        unfold blockAt
        rw [hbl _ r0 h0]
      · intro c hc
        rw [e]
        exact per_cons ly D.fields sim _ _ r0 c hc

/-- The merged patches tile the plane. -/
theorem domain_tiling {sim : Shamrock.Box Int} {ly : Gz.GLayout} {pbox : Nat → Shamrock.Box Int} {recs : Nat → List (Gz.GRec ℚ)} {ss : List Nat}
    (D : Domain sim ly pbox recs ss) (tv : Gz.TVec) :
    ∃ lab : Nat → List Lab, Tiling ss.length (gridOf recs ss) (fun p => ⟨(pbox (idOf ss p)).lower, (pbox (idOf ss p)).upper⟩) (sizeOfDom sim) lab ∧
      (∀ p < ss.length, (Gz.mergedBlocks ly per sim tv pbox recs ss (idOf ss p)).map boxOf = meshOf (gridOf recs ss) (sizeOfDom sim) lab p) ∧
      ∀ p < ss.length, ∀ d < (lab p).length * 8, (consList (Gz.mergedBlocks ly per sim tv pbox recs ss (idOf ss p))).getD d state0 =
        (consList (Gz.mergedBlocks ly per sim tv pbox recs ss (idOf ss (srcOf lab p d).1))).getD (srcOf lab p d).2 state0 := by
  have : ∀ p, ∃ lab : List Lab, p < ss.length → lab.Nodup ∧
      (∀ l : Lab, l ∈ lab ↔ l.1 < ss.length ∧ l.2.1 < (gridOf recs ss l.1).length ∧
        Meets (blockAt (gridOf recs ss) (sizeOfDom sim) l) ⟨(pbox (idOf ss p)).lower, (pbox (idOf ss p)).upper⟩) ∧
      (∀ i < (gridOf recs ss p).length, lab[i]? = some (p, i, origin)) ∧
      lab.length = (Gz.mergedBlocks ly per sim tv pbox recs ss (idOf ss p)).length ∧
      ∀ (j : Nat) l r, lab[j]? = some l → (Gz.mergedBlocks ly per sim tv pbox recs ss (idOf ss p))[j]? = some r →
        boxOf r = blockAt (gridOf recs ss) (sizeOfDom sim) l ∧ ∃ r0, (recs (idOf ss l.1))[l.2.1]? = some r0 ∧ ∀ c < 8, consOf r c = consOf r0 c := by
    intro p
    by_cases hp : p < ss.length
    · obtain ⟨lab, h⟩ := merged_labels D tv hp
      exact ⟨lab, fun _ => h⟩
    · exact ⟨[], fun h => absurd h hp⟩
  choose lab hlab using this
  have hlen : ∀ q, (gridOf recs ss q).length = (recs (idOf ss q)).length := fun q => by unfold gridOf; rw [List.length_map]
  have hget : ∀ (q i : Nat), i < (recs (idOf ss q)).length → ∃ r, (recs (idOf ss q))[i]? = some r ∧ (gridOf recs ss q).getD i box0 = boxOf r := by
    intro q i hi
    refine ⟨_, List.getElem?_eq_getElem hi, ?_⟩
    unfold gridOf
    rw [List.getD_eq_getElem?_getD, List.getElem?_map, List.getElem?_eq_getElem hi]
    rfl
  have hsim : ∀ q < ss.length, ∀ r ∈ recs (idOf ss q), ∀ j < 3, V3.at sim.lower j ≤ V3.at (boxOf r).lo j ∧ V3.at (boxOf r).hi j ≤ V3.at sim.upper j := by
    intro q hq r hr j hj
    have a := at_inBox (D.blocks _ (idOf_mem hq) r hr).2 j hj
    have b := at_inBox (D.box _ (idOf_mem hq)).2 j hj
    have e : (boxOf r).lo = r.box.lower ∧ (boxOf r).hi = r.box.upper := ⟨rfl, rfl⟩
    rw [e.1, e.2]
    omega
  have hT : Tiling ss.length (gridOf recs ss) (fun p => ⟨(pbox (idOf ss p)).lower, (pbox (idOf ss p)).upper⟩) (sizeOfDom sim) lab := by
    refine ⟨?_, ?_, ?_, fun p hp => (hlab p hp).1, fun p hp => (hlab p hp).2.1, fun p hp => (hlab p hp).2.2.1⟩
    · intro p hp b hb
      obtain ⟨r, hr, rfl⟩ := List.mem_map.1 hb
      exact (D.blocks _ (idOf_mem hp) r hr).1
    · intro p hp b hb
      obtain ⟨r, hr, rfl⟩ := List.mem_map.1 hb
      exact at_inBox (D.blocks _ (idOf_mem hp) r hr).2
    · rintro ⟨q, i, k⟩ ⟨q', i', k'⟩ h1 h2 h3 h4 hne
      simp only at h1 h2 h3 h4
      rw [hlen] at h3 h4
      obtain ⟨r, hr, er⟩ := hget q i h3
      obtain ⟨r', hr', er'⟩ := hget q' i' h4
      unfold blockAt
      simp only
      rw [er, er']
      apply apart_tiles (hsim q h1 r (List.mem_of_getElem? hr)) (hsim q' h2 r' (List.mem_of_getElem? hr'))
      by_cases hk : k = k'
      · refine Or.inr (D.apart _ (idOf_mem h1) _ (idOf_mem h2) i i' r r' hr hr' ?_)
        intro e
        rw [Prod.mk.injEq] at e
        apply hne
        have := congrArg (fun x => ss.idxOf x) e.1
        rw [idxOf_idOf D.nodup h1, idxOf_idOf D.nodup h2] at this
        rw [this, e.2, hk]
      · exact Or.inl hk
  refine ⟨lab, hT, ?_, ?_⟩
  · intro p hp
    obtain ⟨-, -, -, h4, h5⟩ := hlab p hp
    apply List.ext_getElem?
    intro j
    unfold meshOf
    rw [List.getElem?_map, List.getElem?_map]
    by_cases hj : j < (lab p).length
    · obtain ⟨r, hr⟩ : ∃ r, (Gz.mergedBlocks ly per sim tv pbox recs ss (idOf ss p))[j]? = some r := ⟨_, List.getElem?_eq_getElem (by omega)⟩
      obtain ⟨l, hl⟩ : ∃ l, (lab p)[j]? = some l := ⟨_, List.getElem?_eq_getElem hj⟩
      rw [hr, hl, Option.map_some, Option.map_some, (h5 j l r hl hr).1]
    · rw [List.getElem?_eq_none (by omega), List.getElem?_eq_none (by omega)]; rfl
  · intro p hp d hd
    have hcell : ∀ q < ss.length, ∀ e < (lab q).length * 8, ∃ r0, (recs (idOf ss (labD lab q e).1))[(labD lab q e).2.1]? = some r0 ∧
        (consList (Gz.mergedBlocks ly per sim tv pbox recs ss (idOf ss q))).getD e state0 = consOf r0 (e % 8) := by
      intro q hq e he
      obtain ⟨-, -, -, h4, h5⟩ := hlab q hq
      obtain ⟨r, hr⟩ : ∃ r, (Gz.mergedBlocks ly per sim tv pbox recs ss (idOf ss q))[e / 8]? = some r := ⟨_, List.getElem?_eq_getElem (by omega)⟩
      obtain ⟨-, r0, h0, h6⟩ := h5 _ _ r (labD_get he) hr
      refine ⟨r0, h0, ?_⟩
      rw [List.getD_eq_getElem?_getD, consList_get, hr, Option.map_some, Option.getD_some, h6 _ (by omega)]
    obtain ⟨r0, h0, e0⟩ := hcell p hp d hd
    obtain ⟨l1, l2, -⟩ := (hT.mem p hp _).1 (labD_mem hd)
    have ho := own_len hT l1
    have hs2 : (srcOf lab p d).2 < 8 * (gridOf recs ss (srcOf lab p d).1).length := by
      unfold srcOf; dsimp only; omega
    obtain ⟨r1, h1, e1⟩ := hcell (srcOf lab p d).1 l1 (srcOf lab p d).2 (by have : (srcOf lab p d).1 = (labD lab p d).1 := rfl; rw [this] at hs2 ⊢; omega)
    rw [own_label hT (p := (srcOf lab p d).1) l1 hs2] at h1
    rw [e0, e1]
    have a1 : (srcOf lab p d).2 / 8 = (labD lab p d).2.1 := by unfold srcOf; dsimp only; omega
    have a2 : (srcOf lab p d).2 % 8 = d % 8 := by unfold srcOf; dsimp only; omega
    simp only [a1] at h1
    have a3 : (srcOf lab p d).1 = (labD lab p d).1 := rfl
    rw [a3, h0, Option.some.injEq] at h1
    rw [a2, h1]

end Shamrock.Fv
