import Verif.Model.Patch
import Verif.Props.Integer
import Mathlib.Order.Basic
import Mathlib.Order.Defs.LinearOrder
import Mathlib.Data.List.Basic
import Mathlib.Data.List.Nodup
import Mathlib.Tactic.Tauto
/-! Properties C35, C44 and C47: geometry of patches. -/
namespace Shamrock

/-- Specification: integer cell `p` belongs to patch box `c` (inclusive bounds). -/
def Cell (c : PatchCoord) (p : V3 Nat) : Prop :=
  (c.cmin.x ≤ p.x ∧ p.x ≤ c.cmax.x) ∧ (c.cmin.y ≤ p.y ∧ p.y ≤ c.cmax.y) ∧ (c.cmin.z ≤ p.z ∧ p.z ≤ c.cmax.z)

/-- A patch that can be split: at least two cells along each axis, `u64` coordinates. -/
def Splittable (c : PatchCoord) : Prop :=
  (c.cmin.x < c.cmax.x ∧ c.cmax.x < 2 ^ 64) ∧ (c.cmin.y < c.cmax.y ∧ c.cmax.y < 2 ^ 64) ∧
  (c.cmin.z < c.cmax.z ∧ c.cmax.z < 2 ^ 64)

theorem splitCoord1_eq {mn mx : Nat} (h : mn < mx) (h2 : mx < 2 ^ 64) (h3 : mx - mn + 1 < 2 ^ 64) :
    splitCoord1 mn mx = mn + (mx - mn + 1) / 2 - 1 := by
  unfold splitCoord1 u64add u64sub; omega

/-- Split coordinates lie strictly inside the parent, except for the full `u64` axis which no patch has
(patches live in `[0, 2^21)`); the latter wraps. -/
theorem splitCoord1_bounds {mn mx : Nat} (h : mn < mx) (h2 : mx < 2 ^ 64) (h3 : mx - mn + 1 < 2 ^ 64) :
    mn ≤ splitCoord1 mn mx ∧ splitCoord1 mn mx < mx ∧ u64add (splitCoord1 mn mx) 1 = splitCoord1 mn mx + 1 := by
  rw [splitCoord1_eq h h2 h3]; unfold u64add; omega

/-- No axis spans the whole `u64` range. -/
def NotFull (c : PatchCoord) : Prop :=
  c.cmax.x - c.cmin.x + 1 < 2 ^ 64 ∧ c.cmax.y - c.cmin.y + 1 < 2 ^ 64 ∧ c.cmax.z - c.cmin.z + 1 < 2 ^ 64

theorem getSplit_length (c : PatchCoord) : (getSplit c).length = 8 := rfl

theorem octant_partition {A A0 A1 B B0 B1 C C0 C1 : Prop} (hA : A ↔ A0 ∨ A1) (hA' : ¬ (A0 ∧ A1)) (hB : B ↔ B0 ∨ B1)
    (hB' : ¬ (B0 ∧ B1)) (hC : C ↔ C0 ∨ C1) (hC' : ¬ (C0 ∧ C1)) {c0 c1 c2 c3 c4 c5 c6 c7 : PatchCoord}
    {Q : PatchCoord → Prop} (h0 : Q c0 ↔ A0 ∧ B0 ∧ C0) (h1 : Q c1 ↔ A0 ∧ B0 ∧ C1) (h2 : Q c2 ↔ A0 ∧ B1 ∧ C0)
    (h3 : Q c3 ↔ A0 ∧ B1 ∧ C1) (h4 : Q c4 ↔ A1 ∧ B0 ∧ C0) (h5 : Q c5 ↔ A1 ∧ B0 ∧ C1) (h6 : Q c6 ↔ A1 ∧ B1 ∧ C0)
    (h7 : Q c7 ↔ A1 ∧ B1 ∧ C1) :
    (A ∧ B ∧ C → ∃ i : Nat, ∃ ch, [c0, c1, c2, c3, c4, c5, c6, c7][i]? = some ch ∧ Q ch ∧
      ∀ (j : Nat) ch', [c0, c1, c2, c3, c4, c5, c6, c7][j]? = some ch' → Q ch' → j = i) ∧
    (∀ ch ∈ [c0, c1, c2, c3, c4, c5, c6, c7], Q ch → A ∧ B ∧ C) := by
  have nA : A0 → ¬ A1 := fun a h => hA' ⟨a, h⟩
  have nB : B0 → ¬ B1 := fun a h => hB' ⟨a, h⟩
  have nC : C0 → ¬ C1 := fun a h => hC' ⟨a, h⟩
  have hu : ∀ (i : Nat) ch, [c0, c1, c2, c3, c4, c5, c6, c7][i]? = some ch → Q ch →
      ∀ (j : Nat) ch', [c0, c1, c2, c3, c4, c5, c6, c7][j]? = some ch' → Q ch' → j = i := by
    have key : ∀ (i : Nat) ch, [c0, c1, c2, c3, c4, c5, c6, c7][i]? = some ch → Q ch →
        (A1 ↔ 4 ≤ i) ∧ (B1 ↔ 2 ≤ i % 4) ∧ (C1 ↔ i % 2 = 1) ∧ i < 8 := by
      intro i ch hi hq
      rcases i with _ | _ | _ | _ | _ | _ | _ | _ | i <;>
        simp only [List.getElem?_cons_zero, List.getElem?_cons_succ, List.getElem?_nil, Option.some.injEq, reduceCtorEq,
          Nat.zero_add, Nat.reduceAdd] at hi <;> subst hi
      · rw [h0] at hq; simp [nA hq.1, nB hq.2.1, nC hq.2.2]
      · rw [h1] at hq; simp [nA hq.1, nB hq.2.1, hq.2.2]
      · rw [h2] at hq; simp [nA hq.1, hq.2.1, nC hq.2.2]
      · rw [h3] at hq; simp [nA hq.1, hq.2.1, hq.2.2]
      · rw [h4] at hq; simp [hq.1, nB hq.2.1, nC hq.2.2]
      · rw [h5] at hq; simp [hq.1, nB hq.2.1, hq.2.2]
      · rw [h6] at hq; simp [hq.1, hq.2.1, nC hq.2.2]
      · rw [h7] at hq; simp [hq.1, hq.2.1, hq.2.2]
    intro i ch hi hq j ch' hj hq'
    obtain ⟨a1, a2, a3, a4⟩ := key i ch hi hq
    obtain ⟨b1, b2, b3, b4⟩ := key j ch' hj hq'
    have e1 := a1.symm.trans b1
    have e2 := a2.symm.trans b2
    have e3 := a3.symm.trans b3
    omega
  constructor
  · rintro ⟨a, b, c⟩
    rcases hA.1 a with a | a <;> rcases hB.1 b with b | b <;> rcases hC.1 c with c | c
    · exact ⟨0, _, rfl, h0.2 ⟨a, b, c⟩, hu 0 _ rfl (h0.2 ⟨a, b, c⟩)⟩
    · exact ⟨1, _, rfl, h1.2 ⟨a, b, c⟩, hu 1 _ rfl (h1.2 ⟨a, b, c⟩)⟩
    · exact ⟨2, _, rfl, h2.2 ⟨a, b, c⟩, hu 2 _ rfl (h2.2 ⟨a, b, c⟩)⟩
    · exact ⟨3, _, rfl, h3.2 ⟨a, b, c⟩, hu 3 _ rfl (h3.2 ⟨a, b, c⟩)⟩
    · exact ⟨4, _, rfl, h4.2 ⟨a, b, c⟩, hu 4 _ rfl (h4.2 ⟨a, b, c⟩)⟩
    · exact ⟨5, _, rfl, h5.2 ⟨a, b, c⟩, hu 5 _ rfl (h5.2 ⟨a, b, c⟩)⟩
    · exact ⟨6, _, rfl, h6.2 ⟨a, b, c⟩, hu 6 _ rfl (h6.2 ⟨a, b, c⟩)⟩
    · exact ⟨7, _, rfl, h7.2 ⟨a, b, c⟩, hu 7 _ rfl (h7.2 ⟨a, b, c⟩)⟩
  · intro ch hch hq
    simp only [List.mem_cons, List.not_mem_nil, or_false] at hch
    rcases hch with rfl | rfl | rfl | rfl | rfl | rfl | rfl | rfl
    · rw [h0] at hq; exact ⟨hA.2 (Or.inl hq.1), hB.2 (Or.inl hq.2.1), hC.2 (Or.inl hq.2.2)⟩
    · rw [h1] at hq; exact ⟨hA.2 (Or.inl hq.1), hB.2 (Or.inl hq.2.1), hC.2 (Or.inr hq.2.2)⟩
    · rw [h2] at hq; exact ⟨hA.2 (Or.inl hq.1), hB.2 (Or.inr hq.2.1), hC.2 (Or.inl hq.2.2)⟩
    · rw [h3] at hq; exact ⟨hA.2 (Or.inl hq.1), hB.2 (Or.inr hq.2.1), hC.2 (Or.inr hq.2.2)⟩
    · rw [h4] at hq; exact ⟨hA.2 (Or.inr hq.1), hB.2 (Or.inl hq.2.1), hC.2 (Or.inl hq.2.2)⟩
    · rw [h5] at hq; exact ⟨hA.2 (Or.inr hq.1), hB.2 (Or.inl hq.2.1), hC.2 (Or.inr hq.2.2)⟩
    · rw [h6] at hq; exact ⟨hA.2 (Or.inr hq.1), hB.2 (Or.inr hq.2.1), hC.2 (Or.inl hq.2.2)⟩
    · rw [h7] at hq; exact ⟨hA.2 (Or.inr hq.1), hB.2 (Or.inr hq.2.1), hC.2 (Or.inr hq.2.2)⟩

/-- C35: the eight children of a patch partition its cells: every cell of the parent lies in exactly one child and no child has
a cell outside the parent. -/
theorem C35_split_partition (c : PatchCoord) (hs : Splittable c) (hf : NotFull c) (p : V3 Nat) :
    (Cell c p → ∃ i : Nat, ∃ ch, (getSplit c)[i]? = some ch ∧ Cell ch p ∧
      ∀ (j : Nat) ch', (getSplit c)[j]? = some ch' → Cell ch' p → j = i) ∧
    (∀ ch ∈ getSplit c, Cell ch p → Cell c p) := by
  obtain ⟨⟨mnx, mny, mnz⟩, ⟨mxx, mxy, mxz⟩⟩ := c
  obtain ⟨px, py, pz⟩ := p
  obtain ⟨hx, hy, hz⟩ := hs
  obtain ⟨fx, fy, fz⟩ := hf
  simp only at hx hy hz fx fy fz
  obtain ⟨ax, bx, cx⟩ := splitCoord1_bounds hx.1 hx.2 fx
  obtain ⟨ay, by', cy⟩ := splitCoord1_bounds hy.1 hy.2 fy
  obtain ⟨az, bz, cz⟩ := splitCoord1_bounds hz.1 hz.2 fz
  simp only [getSplit, getSplitCoord, cx, cy, cz]
  generalize splitCoord1 mnx mxx = sx at *
  generalize splitCoord1 mny mxy = sy at *
  generalize splitCoord1 mnz mxz = sz at *
  exact octant_partition (Q := fun ch => Cell ch ⟨px, py, pz⟩)
    (A := mnx ≤ px ∧ px ≤ mxx) (B := mny ≤ py ∧ py ≤ mxy) (C := mnz ≤ pz ∧ pz ≤ mxz)
    (A0 := mnx ≤ px ∧ px ≤ sx) (A1 := sx + 1 ≤ px ∧ px ≤ mxx) (B0 := mny ≤ py ∧ py ≤ sy) (B1 := sy + 1 ≤ py ∧ py ≤ mxy)
    (C0 := mnz ≤ pz ∧ pz ≤ sz) (C1 := sz + 1 ≤ pz ∧ pz ≤ mxz)
    (by omega) (by omega) (by omega) (by omega) (by omega) (by omega)
    Iff.rfl Iff.rfl Iff.rfl Iff.rfl Iff.rfl Iff.rfl Iff.rfl Iff.rfl

/-- C35: merging the eight children gives back the parent box. -/
theorem C35_merge_split (c : PatchCoord) (hs : Splittable c) (hf : NotFull c) : mergeCoord8 (getSplit c) = some c := by
  obtain ⟨⟨mnx, mny, mnz⟩, ⟨mxx, mxy, mxz⟩⟩ := c
  obtain ⟨hx, hy, hz⟩ := hs
  obtain ⟨fx, fy, fz⟩ := hf
  simp only at hx hy hz fx fy fz
  obtain ⟨ax, bx, cx⟩ := splitCoord1_bounds hx.1 hx.2 fx
  obtain ⟨ay, by', cy⟩ := splitCoord1_bounds hy.1 hy.2 fy
  obtain ⟨az, bz, cz⟩ := splitCoord1_bounds hz.1 hz.2 fz
  have m1 : min mnx (splitCoord1 mnx mxx + 1) = mnx := Nat.min_eq_left (by omega)
  have m2 : min mny (splitCoord1 mny mxy + 1) = mny := Nat.min_eq_left (by omega)
  have m3 : min mnz (splitCoord1 mnz mxz + 1) = mnz := Nat.min_eq_left (by omega)
  have m4 : max (splitCoord1 mnx mxx) mxx = mxx := Nat.max_eq_right (by omega)
  have m5 : max (splitCoord1 mny mxy) mxy = mxy := Nat.max_eq_right (by omega)
  have m6 : max (splitCoord1 mnz mxz) mxz = mxz := Nat.max_eq_right (by omega)
  simp only [getSplit, getSplitCoord, cx, cy, cz, mergeCoord8, mergeCoord2, Nat.min_self, Nat.max_self, m1, m2, m3, m4, m5, m6]

/-- C35: children of an even sided patch have exactly half the side on each axis; a power of two side stays so. -/
theorem C35_split_halves (c : PatchCoord) (hs : Splittable c) (hf : NotFull c) (kx ky kz : Nat)
    (hx : c.cmax.x - c.cmin.x + 1 = 2 * kx) (hy : c.cmax.y - c.cmin.y + 1 = 2 * ky) (hz : c.cmax.z - c.cmin.z + 1 = 2 * kz) :
    ∀ ch ∈ getSplit c, ch.cmax.x + 1 = ch.cmin.x + kx ∧ ch.cmax.y + 1 = ch.cmin.y + ky ∧ ch.cmax.z + 1 = ch.cmin.z + kz := by
  obtain ⟨⟨mnx, mny, mnz⟩, ⟨mxx, mxy, mxz⟩⟩ := c
  obtain ⟨h1, h2, h3⟩ := hs
  obtain ⟨fx, fy, fz⟩ := hf
  simp only at *
  have ax := splitCoord1_eq h1.1 h1.2 fx
  have ay := splitCoord1_eq h2.1 h2.2 fy
  have az := splitCoord1_eq h3.1 h3.2 fz
  obtain ⟨_, _, cx⟩ := splitCoord1_bounds h1.1 h1.2 fx
  obtain ⟨_, _, cy⟩ := splitCoord1_bounds h2.1 h2.2 fy
  obtain ⟨_, _, cz⟩ := splitCoord1_bounds h3.1 h3.2 fz
  simp only [getSplit, getSplitCoord, cx, cy, cz]
  generalize splitCoord1 mnx mxx = sx at *
  generalize splitCoord1 mny mxy = sy at *
  generalize splitCoord1 mnz mxz = sz at *
  intro ch hch
  simp only [List.mem_cons, List.not_mem_nil, or_false] at hch
  rcases hch with rfl | rfl | rfl | rfl | rfl | rfl | rfl | rfl <;> simp only <;> omega

/-- C35: splitting a patch: the eight children keep id (given by the caller afterwards), owner and pack flag, and the total load does
not increase. -/
theorem C35_split_patch_fields (p : Patch) :
    p.getSplit.length = 8 ∧ (∀ q ∈ p.getSplit, q.nodeOwnerId = p.nodeOwnerId) ∧
    p.getSplit.map Patch.coord = getSplit p.coord ∧
    (p.getSplit.map Patch.loadValue).sum ≤ p.loadValue := by
  refine ⟨rfl, ?_, rfl, ?_⟩
  · intro q hq
    simp only [Patch.getSplit, List.mem_map] at hq
    obtain ⟨c, _, rfl⟩ := hq; rfl
  · show p.loadValue / 8 + (p.loadValue / 8 + (p.loadValue / 8 + (p.loadValue / 8 + (p.loadValue / 8 + (p.loadValue / 8 +
      (p.loadValue / 8 + (p.loadValue / 8 + 0))))))) ≤ p.loadValue
    omega

/-- C35: merging the children of a split gives the parent box, its owner, and the sum of the loads of the children. -/
theorem C35_merge_patch_split (p : Patch) (hs : Splittable p.coord) (hf : NotFull p.coord) (hl : p.loadValue < 2 ^ 64) :
    ∃ q, mergePatch p.getSplit = some q ∧ q.coord = p.coord ∧ q.nodeOwnerId = p.nodeOwnerId ∧ q.idPatch = p.idPatch ∧
      q.packNodeIndex = u64max ∧ q.loadValue = (p.getSplit.map Patch.loadValue).sum := by
  have hm := C35_merge_split p.coord hs hf
  have hgs : ∀ f : PatchCoord → Patch, (Shamrock.getSplit p.coord).map f =
    [f ((getSplit p.coord)[0]'(by rw [getSplit_length]; omega)), f ((getSplit p.coord)[1]'(by rw [getSplit_length]; omega)),
     f ((getSplit p.coord)[2]'(by rw [getSplit_length]; omega)), f ((getSplit p.coord)[3]'(by rw [getSplit_length]; omega)),
     f ((getSplit p.coord)[4]'(by rw [getSplit_length]; omega)), f ((getSplit p.coord)[5]'(by rw [getSplit_length]; omega)),
     f ((getSplit p.coord)[6]'(by rw [getSplit_length]; omega)), f ((getSplit p.coord)[7]'(by rw [getSplit_length]; omega))] :=
    fun f => rfl
  have hm' : mergeCoord8 [(getSplit p.coord)[0]'(by rw [getSplit_length]; omega), (getSplit p.coord)[1]'(by rw [getSplit_length]; omega),
     (getSplit p.coord)[2]'(by rw [getSplit_length]; omega), (getSplit p.coord)[3]'(by rw [getSplit_length]; omega),
     (getSplit p.coord)[4]'(by rw [getSplit_length]; omega), (getSplit p.coord)[5]'(by rw [getSplit_length]; omega),
     (getSplit p.coord)[6]'(by rw [getSplit_length]; omega), (getSplit p.coord)[7]'(by rw [getSplit_length]; omega)] = some p.coord := hm
  simp only [Patch.getSplit, hgs, mergePatch, hm', Option.map_some]
  refine ⟨_, rfl, rfl, rfl, rfl, rfl, ?_⟩
  simp only [List.map_cons, List.map_nil, List.sum_cons, List.sum_nil, u64add]
  omega

example : Splittable ⟨⟨0, 8, 0⟩, ⟨7, 15, 7⟩⟩ ∧ NotFull ⟨⟨0, 8, 0⟩, ⟨7, 15, 7⟩⟩ ∧
    (getSplit ⟨⟨0, 8, 0⟩, ⟨7, 15, 7⟩⟩)[5]? = some ⟨⟨4, 8, 4⟩, ⟨7, 11, 7⟩⟩ := by
  refine ⟨?_, ?_, ?_⟩
  · unfold Splittable; decide
  · unfold NotFull; decide
  · decide

/-- C35 (limit of the property): a patch of side 1 at the origin cannot be split: the computed split coordinate wraps to
2^64-1 and child 0 would cover cells outside the parent. -/
theorem C35_side_one_wraps :
    (getSplit ⟨⟨0, 0, 0⟩, ⟨0, 0, 0⟩⟩)[0]? = some ⟨⟨0, 0, 0⟩, ⟨u64max, u64max, u64max⟩⟩ := by decide

/-! ### C44 -/

/-- The common side of the base patches: the largest power of two fraction of 2^21 that fits the largest grid dimension. -/
def IsGridSide (n sz : Nat) : Prop := ∃ d, IsRoundupPow2 (max n 1) d ∧ sz = maxAxisPatchCoordLength / d

theorem grid_side {n sz : Nat} (hn : n ≤ maxAxisPatchCoordLength) (h : IsGridSide n sz) :
    0 < sz ∧ sz * n ≤ maxAxisPatchCoordLength := by
  obtain ⟨d, ⟨⟨k, rfl⟩, h2, h3⟩, rfl⟩ := h
  have hk : 2 ^ k ≤ 2 ^ 21 := h3 21 (by simp only [maxAxisPatchCoordLength] at hn; omega)
  have hp := Nat.two_pow_pos k
  constructor
  · exact Nat.div_pos (by simpa [maxAxisPatchCoordLength] using hk) hp
  · calc _ ≤ maxAxisPatchCoordLength / 2 ^ k * 2 ^ k := Nat.mul_le_mul_left _ (by omega)
      _ ≤ _ := Nat.div_mul_le_self _ _

/-- C44: for every grid of 1 to 2^21 patches per axis, `make_patch_base_grid` is well defined; it creates nx*ny*nz cubic patches of
one common positive side; the announced bounding box starts at 0; and each cell is inside the bounding box iff it is in one of the
patches, and then in exactly one. -/
theorem C44_base_grid (nx ny nz : Nat) (hx : 1 ≤ nx ∧ nx ≤ 2 ^ 21) (hy : 1 ≤ ny ∧ ny ≤ 2 ^ 21) (hz : 1 ≤ nz ∧ nz ≤ 2 ^ 21) :
    ∃ coords bounds sz, makePatchBaseGrid nx ny nz = some (coords, bounds) ∧ 0 < sz ∧
      coords.length = nx * ny * nz ∧
      (∀ c ∈ coords, c.cmax.x + 1 = c.cmin.x + sz ∧ c.cmax.y + 1 = c.cmin.y + sz ∧ c.cmax.z + 1 = c.cmin.z + sz ∧
        c.cmax.x < 2 ^ 21 ∧ c.cmax.y < 2 ^ 21 ∧ c.cmax.z < 2 ^ 21) ∧
      (bounds.cmin = ⟨0, 0, 0⟩ ∧ bounds.cmax.x + 1 = sz * nx ∧ bounds.cmax.y + 1 = sz * ny ∧ bounds.cmax.z + 1 = sz * nz) ∧
      (∀ p, Cell bounds p ↔ ∃ c ∈ coords, Cell c p) ∧
      (∀ p c c', c ∈ coords → c' ∈ coords → Cell c p → Cell c' p → c = c') ∧ coords.Nodup := by
  have hmax : max (max (max 0 nx) ny) nz ≤ 2 ^ 21 := by omega
  have hb : (BitVec.ofNat 32 (max (max (max 0 nx) ny) nz)).toNat = max (max (max 0 nx) ny) nz := by
    rw [BitVec.toNat_ofNat, Nat.mod_eq_of_lt]; omega
  obtain ⟨r, hr, hr2, _⟩ := C29_roundup_pow2_clz_u32 (BitVec.ofNat 32 (max (max (max 0 nx) ny) nz))
  rw [hb] at hr2
  have hround := hr2 (by omega)
  have hside : IsGridSide (max (max (max 0 nx) ny) nz) (maxAxisPatchCoordLength / r.toNat) := ⟨_, hround, rfl⟩
  have hr0 : r.toNat ≠ 0 := by
    obtain ⟨⟨k, hk⟩, _⟩ := hround
    rw [hk]; exact (Nat.two_pow_pos k).ne'
  obtain ⟨hs0, hs1⟩ := grid_side (by simpa [maxAxisPatchCoordLength] using hmax) hside
  generalize hsz : maxAxisPatchCoordLength / r.toNat = sz at *
  have hall : ∀ n, n ≤ max (max (max 0 nx) ny) nz → sz * n ≤ 2 ^ 21 := fun n hn =>
    (Nat.mul_le_mul_left sz hn).trans (by simpa [maxAxisPatchCoordLength] using hs1)
  have hlo : ∀ i, i < max (max (max 0 nx) ny) nz → gridLo sz i = sz * i ∧ gridHi sz i = sz * (i + 1) - 1 ∧
      sz * (i + 1) = sz * i + sz ∧ sz * (i + 1) ≤ 2 ^ 21 := by
    intro i hi
    have h1 := hall i (by omega)
    have h2 := hall (i + 1) (by omega)
    have h3 : sz * (i + 1) = sz * i + sz := Nat.mul_succ _ _
    have h4 : (i + 1) % 2 ^ 32 = i + 1 := Nat.mod_eq_of_lt (by omega)
    refine ⟨?_, ?_, h3, h2⟩
    · unfold gridLo u64mul; omega
    · unfold gridHi u64sub u64mul; rw [h4]; omega
  have hbound : ∀ n, 1 ≤ n → n ≤ max (max (max 0 nx) ny) nz → u64sub (u64mul sz n) 1 + 1 = sz * n := by
    intro n h1 h2
    have h3 := hall n h2
    have h4 : sz * 1 ≤ sz * n := Nat.mul_le_mul_left sz h1
    unfold u64sub u64mul; omega
  have hmem : ∀ c : PatchCoord, (c ∈ (List.range nx).flatMap fun x => (List.range ny).flatMap fun y => (List.range nz).map fun z =>
      PatchCoord.mk ⟨gridLo sz x, gridLo sz y, gridLo sz z⟩ ⟨gridHi sz x, gridHi sz y, gridHi sz z⟩) ↔
      ∃ x y z, x < nx ∧ y < ny ∧ z < nz ∧
        c = PatchCoord.mk ⟨gridLo sz x, gridLo sz y, gridLo sz z⟩ ⟨gridHi sz x, gridHi sz y, gridHi sz z⟩ := by
    intro c
    simp only [List.mem_flatMap, List.mem_range, List.mem_map]
    constructor
    · rintro ⟨x, hx, y, hy, z, hz, rfl⟩; exact ⟨x, y, z, hx, hy, hz, rfl⟩
    · rintro ⟨x, y, z, hx, hy, hz, rfl⟩; exact ⟨x, hx, y, hy, z, hz, rfl⟩
  have hax : ∀ i q, i < max (max (max 0 nx) ny) nz → (gridLo sz i ≤ q ∧ q ≤ gridHi sz i ↔ q / sz = i) := by
    intro i q hi
    obtain ⟨h1, h2, h3, h4⟩ := hlo i hi
    rw [h1, h2, h3, Nat.div_eq_iff hs0, Nat.mul_comm i sz]
  have hdiv : ∀ n q, 1 ≤ n → n ≤ max (max (max 0 nx) ny) nz → (q ≤ u64sub (u64mul sz n) 1 ↔ q / sz < n) := by
    intro n q h1 h2
    have := hbound n h1 h2
    rw [Nat.div_lt_iff_lt_mul hs0, Nat.mul_comm n sz]; omega
  have hinj : ∀ i j, i < max (max (max 0 nx) ny) nz → j < max (max (max 0 nx) ny) nz → gridLo sz i = gridLo sz j → i = j := by
    intro i j hi hj he
    obtain ⟨h1, _⟩ := hlo i hi
    obtain ⟨h2, _⟩ := hlo j hj
    rw [h1, h2] at he
    exact Nat.eq_of_mul_eq_mul_left hs0 he
  have hcellmem : ∀ p x y z, x < nx → y < ny → z < nz →
      (Cell ⟨⟨gridLo sz x, gridLo sz y, gridLo sz z⟩, ⟨gridHi sz x, gridHi sz y, gridHi sz z⟩⟩ p ↔
        p.x / sz = x ∧ p.y / sz = y ∧ p.z / sz = z) := by
    intro p x y z h1 h2 h3
    simp only [Cell]
    rw [hax x p.x (by omega), hax y p.y (by omega), hax z p.z (by omega)]
  refine ⟨_, _, sz, by simp only [makePatchBaseGrid, hr, hr0, if_false, hsz]; rfl, hs0, ?_, ?_, ?_, ?_, ?_, ?_⟩
  · simp [List.length_flatMap, Nat.mul_assoc]
  · intro c hc
    obtain ⟨x, y, z, h1, h2, h3, rfl⟩ := (hmem c).1 hc
    obtain ⟨a1, a2, a3, a4⟩ := hlo x (by omega)
    obtain ⟨b1, b2, b3, b4⟩ := hlo y (by omega)
    obtain ⟨c1, c2, c3, c4⟩ := hlo z (by omega)
    simp only [a1, a2, b1, b2, c1, c2]
    omega
  · exact ⟨rfl, hbound nx hx.1 (by omega), hbound ny hy.1 (by omega), hbound nz hz.1 (by omega)⟩
  · intro p
    have e1 := hdiv nx p.x hx.1 (by omega)
    have e2 := hdiv ny p.y hy.1 (by omega)
    have e3 := hdiv nz p.z hz.1 (by omega)
    constructor
    · intro hc
      simp only [Cell] at hc
      have f1 := e1.1 hc.1.2
      have f2 := e2.1 hc.2.1.2
      have f3 := e3.1 hc.2.2.2
      exact ⟨_, (hmem _).2 ⟨_, _, _, f1, f2, f3, rfl⟩, (hcellmem p _ _ _ f1 f2 f3).2 ⟨rfl, rfl, rfl⟩⟩
    · rintro ⟨c, hc, hcell⟩
      obtain ⟨x, y, z, h1, h2, h3, rfl⟩ := (hmem c).1 hc
      obtain ⟨f1, f2, f3⟩ := (hcellmem p _ _ _ h1 h2 h3).1 hcell
      simp only [Cell]
      exact ⟨⟨Nat.zero_le _, e1.2 (by omega)⟩, ⟨Nat.zero_le _, e2.2 (by omega)⟩, ⟨Nat.zero_le _, e3.2 (by omega)⟩⟩
  · intro p c c' hc hc' h h'
    obtain ⟨x, y, z, h1, h2, h3, rfl⟩ := (hmem c).1 hc
    obtain ⟨x', y', z', h1', h2', h3', rfl⟩ := (hmem c').1 hc'
    obtain ⟨rfl, rfl, rfl⟩ := (hcellmem p _ _ _ h1 h2 h3).1 h
    obtain ⟨rfl, rfl, rfl⟩ := (hcellmem p _ _ _ h1' h2' h3').1 h'
    rfl
  · rw [List.nodup_flatMap]
    refine ⟨fun x hxm => ?_, ?_⟩
    · rw [List.nodup_flatMap]
      refine ⟨fun y hym => ?_, ?_⟩
      · refine List.Nodup.map_on ?_ List.nodup_range
        intro z hz1 z' hz2 he
        simp only [List.mem_range] at hz1 hz2
        simp only [PatchCoord.mk.injEq, V3.mk.injEq, true_and] at he
        exact hinj z z' (by omega) (by omega) he.1
      · refine List.nodup_range.imp_of_mem ?_
        intro y y' hy1 hy2 hne c hc1 hc2
        simp only [List.mem_map, List.mem_range] at hc1 hc2 hy1 hy2
        obtain ⟨z, _, rfl⟩ := hc1
        obtain ⟨z', _, he⟩ := hc2
        simp only [PatchCoord.mk.injEq, V3.mk.injEq, true_and] at he
        exact hne (hinj y y' (by omega) (by omega) he.1.1.symm)
    · refine List.nodup_range.imp_of_mem ?_
      intro x x' hx1 hx2 hne c hc1 hc2
      simp only [List.mem_flatMap, List.mem_map, List.mem_range] at hc1 hc2 hx1 hx2
      obtain ⟨y, _, z, _, rfl⟩ := hc1
      obtain ⟨y', _, z', _, he⟩ := hc2
      simp only [PatchCoord.mk.injEq, V3.mk.injEq] at he
      exact hne (hinj x x' (by omega) (by omega) he.1.1.symm)

example : makePatchBaseGrid 3 1 2 = some
  ([⟨⟨0, 0, 0⟩, ⟨524287, 524287, 524287⟩⟩, ⟨⟨0, 0, 524288⟩, ⟨524287, 524287, 1048575⟩⟩,
    ⟨⟨524288, 0, 0⟩, ⟨1048575, 524287, 524287⟩⟩, ⟨⟨524288, 0, 524288⟩, ⟨1048575, 524287, 1048575⟩⟩,
    ⟨⟨1048576, 0, 0⟩, ⟨1572863, 524287, 524287⟩⟩, ⟨⟨1048576, 0, 524288⟩, ⟨1572863, 524287, 1048575⟩⟩],
   ⟨⟨0, 0, 0⟩, ⟨1572863, 524287, 1048575⟩⟩) := by decide

/-- C44 (limit): an empty axis is not rejected; the announced bounding box wraps to 2^64-1 on this axis. -/
theorem C44_zero_axis_wraps : makePatchBaseGrid 1 0 1 = some ([], ⟨⟨0, 0, 0⟩, ⟨2097151, u64max, 2097151⟩⟩) := by decide

/-! ### C47 domain boxes of patches -/

/-- Specification: half open membership in a box of an ordered type. -/
def InHalfOpen {F : Type} [LE F] [LT F] (lo hi p : V3 F) : Prop :=
  (lo.x ≤ p.x ∧ p.x < hi.x) ∧ (lo.y ≤ p.y ∧ p.y < hi.y) ∧ (lo.z ≤ p.z ∧ p.z < hi.z)

/-- `SimulationBoxInfo::patch_coord_to_domain` for a floating point position type: the half open domain box of a patch,
/repo/src/shamrock/include/shamrock/patch/SimBox.hpp:301-308 with `get_patch_range` and `CoordRangeTransform::transform`
(CoordRangeTransform.hpp:69-84). -/
def domainBox {F : Type} [LE F] (A : MonoArith F) (fact dmin : V3 F) (smin : V3 Nat) (c : PatchCoord) : V3 F × V3 F :=
  let r := getPatchRange c
  (⟨transformMul A fact.x dmin.x smin.x r.1.x, transformMul A fact.y dmin.y smin.y r.1.y, transformMul A fact.z dmin.z smin.z r.1.z⟩,
   ⟨transformMul A fact.x dmin.x smin.x r.2.x, transformMul A fact.y dmin.y smin.y r.2.y, transformMul A fact.z dmin.z smin.z r.2.z⟩)

theorem transformMul_mono {F : Type} [LE F] (A : MonoArith F) {fact dmin : F} {smin a b : Nat} (hf : A.goodFact fact)
    (h0 : smin ≤ a) (h : a ≤ b) (hb : b < 2 ^ 64) : transformMul A fact dmin smin a ≤ transformMul A fact dmin smin b := by
  unfold transformMul
  exact A.add_mono _ _ _ (A.mul_mono _ _ _ hf (A.conv_mono _ _ (by unfold u64sub; omega)))

/-- C47: in floating point coordinates, with whatever monotone rounding, the half open domain boxes of the eight children of a
patch partition the half open domain box of the patch: each position is in exactly one of them. -/
theorem C47_children_tile_domain {F : Type} [LinearOrder F] (A : MonoArith F) (fact dmin : V3 F) (smin : V3 Nat)
    (hf : A.goodFact fact.x ∧ A.goodFact fact.y ∧ A.goodFact fact.z) (c : PatchCoord)
    (h0 : smin.x ≤ c.cmin.x ∧ smin.y ≤ c.cmin.y ∧ smin.z ≤ c.cmin.z) (hs : Splittable c)
    (hb : c.cmax.x + 1 < 2 ^ 64 ∧ c.cmax.y + 1 < 2 ^ 64 ∧ c.cmax.z + 1 < 2 ^ 64) (p : V3 F) :
    let box := fun c => domainBox A fact dmin smin c
    (InHalfOpen (box c).1 (box c).2 p → ∃ i : Nat, ∃ ch, (getSplit c)[i]? = some ch ∧ InHalfOpen (box ch).1 (box ch).2 p ∧
      ∀ (j : Nat) ch', (getSplit c)[j]? = some ch' → InHalfOpen (box ch').1 (box ch').2 p → j = i) ∧
    (∀ ch ∈ getSplit c, InHalfOpen (box ch).1 (box ch).2 p → InHalfOpen (box c).1 (box c).2 p) := by
  obtain ⟨⟨mnx, mny, mnz⟩, ⟨mxx, mxy, mxz⟩⟩ := c
  obtain ⟨px, py, pz⟩ := p
  obtain ⟨hx, hy, hz⟩ := hs
  obtain ⟨ffx, ffy, ffz⟩ := hf
  simp only at hx hy hz h0 hb
  obtain ⟨ax, bx, cx⟩ := splitCoord1_bounds hx.1 hx.2 (by omega)
  obtain ⟨ay, by', cy⟩ := splitCoord1_bounds hy.1 hy.2 (by omega)
  obtain ⟨az, bz, cz⟩ := splitCoord1_bounds hz.1 hz.2 (by omega)
  have ux : u64add mxx 1 = mxx + 1 := by unfold u64add; omega
  have uy : u64add mxy 1 = mxy + 1 := by unfold u64add; omega
  have uz : u64add mxz 1 = mxz + 1 := by unfold u64add; omega
  have tx1 := transformMul_mono A (dmin := dmin.x) ffx h0.1 (show mnx ≤ splitCoord1 mnx mxx + 1 by omega) (by omega)
  have tx2 := transformMul_mono A (dmin := dmin.x) ffx (show smin.x ≤ splitCoord1 mnx mxx + 1 by omega)
    (show splitCoord1 mnx mxx + 1 ≤ mxx + 1 by omega) (by omega)
  have ty1 := transformMul_mono A (dmin := dmin.y) ffy h0.2.1 (show mny ≤ splitCoord1 mny mxy + 1 by omega) (by omega)
  have ty2 := transformMul_mono A (dmin := dmin.y) ffy (show smin.y ≤ splitCoord1 mny mxy + 1 by omega)
    (show splitCoord1 mny mxy + 1 ≤ mxy + 1 by omega) (by omega)
  have tz1 := transformMul_mono A (dmin := dmin.z) ffz h0.2.2 (show mnz ≤ splitCoord1 mnz mxz + 1 by omega) (by omega)
  have tz2 := transformMul_mono A (dmin := dmin.z) ffz (show smin.z ≤ splitCoord1 mnz mxz + 1 by omega)
    (show splitCoord1 mnz mxz + 1 ≤ mxz + 1 by omega) (by omega)
  simp only [getSplit, getSplitCoord, cx, cy, cz]
  have axis : ∀ {a b c q : F}, a ≤ b → b ≤ c → ((a ≤ q ∧ q < c) ↔ (a ≤ q ∧ q < b) ∨ (b ≤ q ∧ q < c)) := by
    intro a b c q h1 h2
    constructor
    · rintro ⟨h3, h4⟩
      rcases lt_or_ge q b with h | h
      · exact Or.inl ⟨h3, h⟩
      · exact Or.inr ⟨h, h4⟩
    · rintro (⟨h3, h4⟩ | ⟨h3, h4⟩)
      · exact ⟨h3, lt_of_lt_of_le h4 h2⟩
      · exact ⟨le_trans h1 h3, h4⟩
  have axis' : ∀ {a b c q : F}, ¬ ((a ≤ q ∧ q < b) ∧ (b ≤ q ∧ q < c)) := fun h => absurd h.1.2 (not_lt.2 h.2.1)
  have key := fun c0 c1 c2 c3 c4 c5 c6 c7 => octant_partition (c0 := c0) (c1 := c1) (c2 := c2) (c3 := c3) (c4 := c4) (c5 := c5)
    (c6 := c6) (c7 := c7)
    (Q := fun ch => InHalfOpen (domainBox A fact dmin smin ch).1 (domainBox A fact dmin smin ch).2 ⟨px, py, pz⟩)
    (axis (q := px) tx1 tx2) axis' (axis (q := py) ty1 ty2) axis' (axis (q := pz) tz1 tz2) axis'
  have hpar : InHalfOpen (domainBox A fact dmin smin ⟨⟨mnx, mny, mnz⟩, ⟨mxx, mxy, mxz⟩⟩).1
      (domainBox A fact dmin smin ⟨⟨mnx, mny, mnz⟩, ⟨mxx, mxy, mxz⟩⟩).2 ⟨px, py, pz⟩ ↔
      (transformMul A fact.x dmin.x smin.x mnx ≤ px ∧ px < transformMul A fact.x dmin.x smin.x (mxx + 1)) ∧
      (transformMul A fact.y dmin.y smin.y mny ≤ py ∧ py < transformMul A fact.y dmin.y smin.y (mxy + 1)) ∧
      (transformMul A fact.z dmin.z smin.z mnz ≤ pz ∧ pz < transformMul A fact.z dmin.z smin.z (mxz + 1)) := by
    simp only [domainBox, getPatchRange, InHalfOpen, ux, uy, uz]
  rw [hpar]
  apply key <;> simp only [domainBox, getPatchRange, InHalfOpen, ux, uy, uz, cx, cy, cz]

/-- C47: same for the base grid cells along one axis: consecutive cells meet exactly in the same rounded coordinate, so a position
of the domain is in exactly one slab `[t(sz*i), t(sz*(i+1)))`. -/
theorem C47_grid_slabs_tile {F : Type} [LinearOrder F] (A : MonoArith F) (fact dmin : F) (hf : A.goodFact fact) (sz n : Nat)
    (hb : sz * n < 2 ^ 64) (q : F) (h1 : transformMul A fact dmin 0 0 ≤ q) (h2 : q < transformMul A fact dmin 0 (sz * n)) :
    ∃ i, (i < n ∧ transformMul A fact dmin 0 (sz * i) ≤ q ∧ q < transformMul A fact dmin 0 (sz * (i + 1))) ∧
      ∀ j, (j < n ∧ transformMul A fact dmin 0 (sz * j) ≤ q ∧ q < transformMul A fact dmin 0 (sz * (j + 1))) → j = i := by
  have hmono : ∀ a b, a ≤ b → b ≤ n → transformMul A fact dmin 0 (sz * a) ≤ transformMul A fact dmin 0 (sz * b) := by
    intro a b hab hbn
    have h1 : sz * b ≤ sz * n := Nat.mul_le_mul_left _ hbn
    exact transformMul_mono A hf (Nat.zero_le _) (Nat.mul_le_mul_left _ hab) (by omega)
  have hex : ∀ m, m ≤ n → q < transformMul A fact dmin 0 (sz * m) →
      ∃ i, i < m ∧ transformMul A fact dmin 0 (sz * i) ≤ q ∧ q < transformMul A fact dmin 0 (sz * (i + 1)) := by
    intro m
    induction m with
    | zero => intro _ h; exact absurd h1 (not_le.2 (by simpa using h))
    | succ m ih =>
      intro hm h
      rcases lt_or_ge q (transformMul A fact dmin 0 (sz * m)) with h' | h'
      · obtain ⟨i, a, b⟩ := ih (by omega) h'
        exact ⟨i, by omega, b⟩
      · exact ⟨m, by omega, h', h⟩
  obtain ⟨i, hi, hlo, hhi⟩ := hex n (le_refl _) h2
  refine ⟨i, ⟨hi, hlo, hhi⟩, ?_⟩
  rintro j ⟨hj, hjlo, hjhi⟩
  rcases Nat.lt_trichotomy i j with h | h | h
  · exact absurd (lt_of_lt_of_le hhi (le_trans (hmono (i + 1) j h (by omega)) hjlo)) (lt_irrefl _)
  · exact h.symm
  · exact absurd (lt_of_lt_of_le hjhi (le_trans (hmono (j + 1) i h (by omega)) hlo)) (lt_irrefl _)

/-- An arithmetic that really rounds (division by 10 after scaling) satisfies the assumptions. -/
def roundedArith : MonoArith Int where
  conv n := (n : Int) / 10
  mul a f := a * f / 3
  add a b := a + b
  goodFact f := 0 ≤ f
  conv_mono a b h := Int.ediv_le_ediv (by omega) (by omega)
  mul_mono f a b hf h := Int.ediv_le_ediv (by omega) (Int.mul_le_mul_of_nonneg_right h hf)
  add_mono c a b h := by omega

example : roundedArith.goodFact 7 ∧ Splittable ⟨⟨0, 0, 0⟩, ⟨63, 63, 63⟩⟩ ∧
    InHalfOpen (domainBox roundedArith ⟨7, 7, 7⟩ ⟨-5, 0, 0⟩ ⟨0, 0, 0⟩ ⟨⟨0, 0, 0⟩, ⟨63, 63, 63⟩⟩).1
      (domainBox roundedArith ⟨7, 7, 7⟩ ⟨-5, 0, 0⟩ ⟨0, 0, 0⟩ ⟨⟨0, 0, 0⟩, ⟨63, 63, 63⟩⟩).2 ⟨0, 3, 7⟩ := by
  refine ⟨by show (0 : Int) ≤ 7; omega, ?_, ?_⟩
  · unfold Splittable; decide
  · unfold InHalfOpen; decide

/-- C47: integer transform, `multiply` mode: it maps the source box onto the destination box corners, is injective, and
`reverse_transform` undoes `transform`. -/
theorem C47_int_transform_roundtrip (slo shi dlo dhi : V3 Nat) (t : IntTransform) (h : mkIntTransform slo shi dlo dhi = some t)
    (hm : t.mode = .multiply) (hs : shi.x < 2 ^ 64 ∧ shi.y < 2 ^ 64 ∧ shi.z < 2 ^ 64)
    (hd : dhi.x < 2 ^ 64 ∧ dhi.y < 2 ^ 64 ∧ dhi.z < 2 ^ 64) (c : V3 Nat)
    (hc : (slo.x ≤ c.x ∧ c.x ≤ shi.x) ∧ (slo.y ≤ c.y ∧ c.y ≤ shi.y) ∧ (slo.z ≤ c.z ∧ c.z ≤ shi.z)) :
    t.reverse (t.apply c) = c ∧ t.apply slo = dlo ∧ t.apply shi = dhi := by
  have axis : ∀ sl sh dl dh c : Nat, sl < sh → dl < dh → sh < 2 ^ 64 → dh < 2 ^ 64 → dh - dl ≥ sh - sl →
      (dh - dl) % (sh - sl) = 0 → sl ≤ c → c ≤ sh →
      intReverse1 .multiply ((dh - dl) / (sh - sl)) dl sl (intTransform1 .multiply ((dh - dl) / (sh - sl)) dl sl c) = c ∧
      intTransform1 .multiply ((dh - dl) / (sh - sl)) dl sl sl = dl ∧
      intTransform1 .multiply ((dh - dl) / (sh - sl)) dl sl sh = dh := by
    intro sl sh dl dh c h1 h2 h3 h4 h5 h6 h7 h8
    have hmul : (sh - sl) * ((dh - dl) / (sh - sl)) = dh - dl := by
      have := Nat.div_add_mod (dh - dl) (sh - sl); omega
    have hpos : 0 < (dh - dl) / (sh - sl) := Nat.div_pos h5 (by omega)
    generalize (dh - dl) / (sh - sl) = f at *
    have hcf : (c - sl) * f ≤ (sh - sl) * f := Nat.mul_le_mul_right _ (by omega)
    have e1 : u64sub c sl = c - sl := by unfold u64sub; omega
    have e2 : u64sub sh sl = sh - sl := by unfold u64sub; omega
    have e3 : u64sub sl sl = 0 := by unfold u64sub; omega
    have e4 : u64mul (c - sl) f = (c - sl) * f := by unfold u64mul; omega
    have e5 : u64mul (sh - sl) f = dh - dl := by unfold u64mul; omega
    have e6 : u64sub (u64add ((c - sl) * f) dl) dl = (c - sl) * f := by unfold u64sub u64add; omega
    refine ⟨?_, ?_, ?_⟩
    · simp only [intReverse1, intTransform1, e1, e4, e6, Nat.mul_div_cancel _ hpos]
      unfold u64add; omega
    · simp only [intTransform1, e3, u64mul, Nat.zero_mul]; unfold u64add; omega
    · simp only [intTransform1, e2, e5]; unfold u64add; omega
  unfold mkIntTransform at h
  split at h
  · next hr =>
    simp only at h
    split at h
    · next hcmp =>
      split at h
      · next hcx =>
        split at h
        · next hdv =>
          simp only [Option.some.injEq] at h
          subst h
          have cx : dhi.x - dlo.x ≥ shi.x - slo.x := of_decide_eq_true hcx
          have cy : dhi.y - dlo.y ≥ shi.y - slo.y := of_decide_eq_true (hcmp.1 ▸ hcx)
          have cz : dhi.z - dlo.z ≥ shi.z - slo.z := of_decide_eq_true (hcmp.2 ▸ hcmp.1 ▸ hcx)
          obtain ⟨a1, a2, a3⟩ := axis slo.x shi.x dlo.x dhi.x c.x hr.1 hr.2.2.2.1 hs.1 hd.1 cx hdv.1 hc.1.1 hc.1.2
          obtain ⟨b1, b2, b3⟩ := axis slo.y shi.y dlo.y dhi.y c.y hr.2.1 hr.2.2.2.2.1 hs.2.1 hd.2.1 cy hdv.2.1 hc.2.1.1 hc.2.1.2
          obtain ⟨c1, c2, c3⟩ := axis slo.z shi.z dlo.z dhi.z c.z hr.2.2.1 hr.2.2.2.2.2 hs.2.2 hd.2.2 cz hdv.2.2 hc.2.2.1 hc.2.2.2
          simp only [IntTransform.reverse, IntTransform.apply, a1, a2, a3, b1, b2, b3, c1, c2, c3, and_self]
        · cases h
      · split at h
        · simp only [Option.some.injEq] at h; subst h; cases hm
        · cases h
    · cases h
  · cases h

example : ∃ t, mkIntTransform ⟨0, 0, 0⟩ ⟨4, 4, 8⟩ ⟨10, 0, 0⟩ ⟨30, 40, 8⟩ = some t ∧ t.mode = .multiply ∧
    t.apply ⟨1, 2, 3⟩ = ⟨15, 20, 3⟩ := by refine ⟨_, rfl, rfl, ?_⟩; decide

/-- C47: the integer transform towards a coarser range (`divide` mode): the inverse maps the target range into the source range and
`transform` undoes it; the corners are exact; and a source coordinate lies less than one coarse cell above the inverse of its image. -/
theorem C47_int_transform_coarse (slo shi dlo dhi : V3 Nat) (t : IntTransform) (h : mkIntTransform slo shi dlo dhi = some t)
    (hm : t.mode = .divide) (hs : shi.x < 2 ^ 64 ∧ shi.y < 2 ^ 64 ∧ shi.z < 2 ^ 64)
    (hd : dhi.x < 2 ^ 64 ∧ dhi.y < 2 ^ 64 ∧ dhi.z < 2 ^ 64) :
    (∀ q : V3 Nat, (dlo.x ≤ q.x ∧ q.x ≤ dhi.x) ∧ (dlo.y ≤ q.y ∧ q.y ≤ dhi.y) ∧ (dlo.z ≤ q.z ∧ q.z ≤ dhi.z) →
      t.apply (t.reverse q) = q ∧ (slo.x ≤ (t.reverse q).x ∧ (t.reverse q).x ≤ shi.x) ∧
      (slo.y ≤ (t.reverse q).y ∧ (t.reverse q).y ≤ shi.y) ∧ (slo.z ≤ (t.reverse q).z ∧ (t.reverse q).z ≤ shi.z)) ∧
    t.apply slo = dlo ∧ t.apply shi = dhi ∧
    ∀ c : V3 Nat, (slo.x ≤ c.x ∧ c.x ≤ shi.x) ∧ (slo.y ≤ c.y ∧ c.y ≤ shi.y) ∧ (slo.z ≤ c.z ∧ c.z ≤ shi.z) →
      ((t.reverse (t.apply c)).x ≤ c.x ∧ c.x < (t.reverse (t.apply c)).x + t.fact.x) ∧
      ((t.reverse (t.apply c)).y ≤ c.y ∧ c.y < (t.reverse (t.apply c)).y + t.fact.y) ∧
      ((t.reverse (t.apply c)).z ≤ c.z ∧ c.z < (t.reverse (t.apply c)).z + t.fact.z) := by
  have axis : ∀ sl sh dl dh : Nat, sl < sh → dl < dh → sh < 2 ^ 64 → dh < 2 ^ 64 → dh - dl < sh - sl →
      (sh - sl) % (dh - dl) = 0 → ∀ f, f = (sh - sl) / (dh - dl) →
      (∀ q, dl ≤ q → q ≤ dh → intTransform1 .divide f dl sl (intReverse1 .divide f dl sl q) = q ∧
        sl ≤ intReverse1 .divide f dl sl q ∧ intReverse1 .divide f dl sl q ≤ sh) ∧
      intTransform1 .divide f dl sl sl = dl ∧ intTransform1 .divide f dl sl sh = dh ∧
      ∀ c, sl ≤ c → c ≤ sh → intReverse1 .divide f dl sl (intTransform1 .divide f dl sl c) ≤ c ∧
        c < intReverse1 .divide f dl sl (intTransform1 .divide f dl sl c) + f := by
    intro sl sh dl dh h1 h2 h3 h4 h5 h6 f hf
    have hmul : (dh - dl) * f = sh - sl := by
      rw [hf]; have := Nat.div_add_mod (sh - sl) (dh - dl); omega
    have hpos : 0 < f := by rw [hf]; exact Nat.div_pos (by omega) (by omega)
    have hrev : ∀ q, dl ≤ q → q ≤ dh → intReverse1 .divide f dl sl q = (q - dl) * f + sl ∧ (q - dl) * f ≤ sh - sl := by
      intro q q1 q2
      have hqf : (q - dl) * f ≤ (dh - dl) * f := Nat.mul_le_mul_right _ (by omega)
      have e1 : u64sub q dl = q - dl := by unfold u64sub; omega
      have e2 : u64mul (q - dl) f = (q - dl) * f := by unfold u64mul; omega
      simp only [intReverse1, e1, e2]
      unfold u64add; omega
    have htr : ∀ c, sl ≤ c → c ≤ sh → intTransform1 .divide f dl sl c = (c - sl) / f + dl ∧ (c - sl) / f ≤ dh - dl := by
      intro c c1 c2
      have e1 : u64sub c sl = c - sl := by unfold u64sub; omega
      have e2 : (c - sl) / f ≤ dh - dl := by
        rw [Nat.div_le_iff_le_mul_add_pred hpos]
        have : f * (dh - dl) = (dh - dl) * f := Nat.mul_comm _ _
        omega
      simp only [intTransform1, e1]
      generalize (c - sl) / f = v at e2 ⊢
      unfold u64add; omega
    refine ⟨fun q q1 q2 => ?_, ?_, ?_, fun c c1 c2 => ?_⟩
    · obtain ⟨r1, r2⟩ := hrev q q1 q2
      rw [r1]
      refine ⟨?_, by omega, by omega⟩
      rw [(htr _ (by omega) (by omega)).1, Nat.add_sub_cancel, Nat.mul_div_cancel _ hpos]
      omega
    · rw [(htr sl (Nat.le_refl _) (by omega)).1, Nat.sub_self, Nat.zero_div]; omega
    · rw [(htr sh (by omega) (Nat.le_refl _)).1, ← hmul, Nat.mul_div_cancel _ hpos]; omega
    · obtain ⟨r1, r2⟩ := htr c c1 c2
      have r3 := Nat.zero_le ((c - sl) / f)
      rw [r1, (hrev _ (Nat.le_add_left _ _) (by omega)).1, Nat.add_sub_cancel]
      have := Nat.div_add_mod (c - sl) f
      have e : (c - sl) / f * f = f * ((c - sl) / f) := Nat.mul_comm _ _
      have := Nat.mod_lt (c - sl) hpos
      omega
  unfold mkIntTransform at h
  split at h
  · next hr =>
    simp only at h
    split at h
    · next hcmp =>
      split at h
      · split at h
        · simp only [Option.some.injEq] at h; subst h; cases hm
        · cases h
      · next hcx =>
        split at h
        · next hdv =>
          simp only [Option.some.injEq] at h
          subst h
          have cx : ¬ dhi.x - dlo.x ≥ shi.x - slo.x := fun hh => hcx (decide_eq_true hh)
          have cy : ¬ dhi.y - dlo.y ≥ shi.y - slo.y := fun hh => hcx (hcmp.1.trans (decide_eq_true hh))
          have cz : ¬ dhi.z - dlo.z ≥ shi.z - slo.z := fun hh => hcx (hcmp.1.trans (hcmp.2.symm.trans (decide_eq_true hh)))
          obtain ⟨a1, a2, a3, a4⟩ := axis slo.x shi.x dlo.x dhi.x hr.1 hr.2.2.2.1 hs.1 hd.1 (by omega) hdv.1 _ rfl
          obtain ⟨b1, b2, b3, b4⟩ := axis slo.y shi.y dlo.y dhi.y hr.2.1 hr.2.2.2.2.1 hs.2.1 hd.2.1 (by omega) hdv.2.1 _ rfl
          obtain ⟨c1, c2, c3, c4⟩ := axis slo.z shi.z dlo.z dhi.z hr.2.2.1 hr.2.2.2.2.2 hs.2.2 hd.2.2 (by omega) hdv.2.2 _ rfl
          refine ⟨?_, ?_, ?_, ?_⟩
          · rintro ⟨qx, qy, qz⟩ ⟨⟨x1, x2⟩, ⟨y1, y2⟩, ⟨z1, z2⟩⟩
            obtain ⟨u1, u2⟩ := a1 qx x1 x2
            obtain ⟨v1, v2⟩ := b1 qy y1 y2
            obtain ⟨w1, w2⟩ := c1 qz z1 z2
            simp only [IntTransform.reverse, IntTransform.apply, u1, v1, w1]
            exact ⟨trivial, u2, v2, w2⟩
          · simp only [IntTransform.apply, a2, b2, c2]
          · simp only [IntTransform.apply, a3, b3, c3]
          · rintro c ⟨⟨x1, x2⟩, ⟨y1, y2⟩, ⟨z1, z2⟩⟩
            exact ⟨a4 c.x x1 x2, b4 c.y y1 y2, c4 c.z z1 z2⟩
        · cases h
    · cases h
  · cases h

example : ∃ t, mkIntTransform ⟨10, 0, 0⟩ ⟨30, 40, 16⟩ ⟨0, 0, 0⟩ ⟨4, 4, 8⟩ = some t ∧ t.mode = .divide ∧
    t.apply ⟨16, 20, 3⟩ = ⟨1, 2, 1⟩ ∧ t.reverse ⟨1, 2, 1⟩ = ⟨15, 20, 2⟩ := by refine ⟨_, rfl, rfl, ?_, ?_⟩ <;> decide

end Shamrock
