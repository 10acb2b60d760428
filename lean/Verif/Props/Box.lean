import Verif.Model.Box
import Verif.Props.Patch
import Mathlib.Tactic.Linarith
import Mathlib.Tactic.FieldSimp
import Mathlib.Tactic.Ring
import Mathlib.Algebra.Order.Field.Rat
/-! Property C32: box algebra. -/
namespace Shamrock

section
variable {F : Type} [LinearOrder F]

/-- Specification: `p` is in the closed box. -/
def InClosed (b : Box F) (p : V3 F) : Prop :=
  (b.lower.x ≤ p.x ∧ p.x ≤ b.upper.x) ∧ (b.lower.y ≤ p.y ∧ p.y ≤ b.upper.y) ∧ (b.lower.z ≤ p.z ∧ p.z ≤ b.upper.z)

/-- C32: the two half open membership tests of the code are half open membership. -/
theorem C32_half_open_membership (b : Box F) (p : V3 F) :
    (b.containPos p = true ↔ InHalfOpen b.lower b.upper p) ∧ (b.containsAsym p = true ↔ InHalfOpen b.lower b.upper p) := by
  unfold Box.containPos Box.containsAsym isInHalfOpen1 vecLeq vecG InHalfOpen
  simp only [Bool.and_eq_true, decide_eq_true_eq, ge_iff_le, gt_iff_lt]
  exact ⟨by constructor <;> (intro h; simp only [h, and_self]), by constructor <;> (intro h; simp only [h, and_self])⟩

/-- C32: a point is in the intersection iff it is in both boxes, for closed and for half open boxes. -/
theorem C32_intersect_points (a b : Box F) (p : V3 F) :
    (InClosed (a.intersect b) p ↔ InClosed a p ∧ InClosed b p) ∧
    ((a.intersect b).containPos p = true ↔ a.containPos p = true ∧ b.containPos p = true) := by
  constructor
  · unfold InClosed Box.intersect V3.vmax V3.vmin
    simp only [max_le_iff, le_min_iff]
    constructor
    · intro h; simp only [h, and_self]
    · intro h; simp only [h, and_self]
  · unfold Box.containPos isInHalfOpen1 Box.intersect V3.vmax V3.vmin
    simp only [Bool.and_eq_true, decide_eq_true_eq, ge_iff_le, max_le_iff, lt_min_iff]
    constructor
    · intro h; simp only [h, and_self]
    · intro h; simp only [h, and_self]

/-- C32: the emptiness tests agree with points: `is_not_empty` iff the closed box has a point, `is_volume_not_null` iff the half open box
has one. -/
theorem C32_empty_iff (a : Box F) :
    (a.isNotEmpty = true ↔ ∃ p, InClosed a p) ∧ (a.isVolumeNotNull = true ↔ ∃ p, a.containPos p = true) := by
  constructor
  · unfold Box.isNotEmpty vecGeq InClosed
    simp only [Bool.and_eq_true, decide_eq_true_eq, ge_iff_le]
    constructor
    · rintro ⟨⟨h1, h2⟩, h3⟩
      exact ⟨a.lower, ⟨le_refl _, h1⟩, ⟨le_refl _, h2⟩, ⟨le_refl _, h3⟩⟩
    · rintro ⟨p, h1, h2, h3⟩
      exact ⟨⟨h1.1.trans h1.2, h2.1.trans h2.2⟩, h3.1.trans h3.2⟩
  · unfold Box.isVolumeNotNull vecG Box.containPos isInHalfOpen1
    simp only [Bool.and_eq_true, decide_eq_true_eq, ge_iff_le, gt_iff_lt]
    constructor
    · rintro ⟨⟨h1, h2⟩, h3⟩
      exact ⟨a.lower, ⟨⟨le_refl _, h1⟩, ⟨le_refl _, h2⟩⟩, ⟨le_refl _, h3⟩⟩
    · rintro ⟨p, ⟨h1, h2⟩, h3⟩
      exact ⟨⟨h1.1.trans_lt h1.2, h2.1.trans_lt h2.2⟩, h3.1.trans_lt h3.2⟩

/-- C32: two boxes are reported connected iff they share a point of their closed boxes, and reported to intersect iff they share a point
of their half open boxes; both agree with the emptiness tests of the intersection. -/
theorem C32_overlap_tests (a b : Box F) :
    (domainAreConnected a b = true ↔ ∃ p, InClosed a p ∧ InClosed b p) ∧
    (domainHaveIntersect a b = true ↔ ∃ p, a.containPos p = true ∧ b.containPos p = true) ∧
    domainAreConnected a b = (a.intersect b).isNotEmpty ∧ domainHaveIntersect a b = (a.intersect b).isVolumeNotNull := by
  have e1 : domainAreConnected a b = (a.intersect b).isNotEmpty := rfl
  have e2 : domainHaveIntersect a b = (a.intersect b).isVolumeNotNull := rfl
  refine ⟨?_, ?_, e1, e2⟩
  · rw [e1, (C32_empty_iff _).1]
    exact exists_congr fun p => (C32_intersect_points a b p).1
  · rw [e2, (C32_empty_iff _).2]
    exact exists_congr fun p => (C32_intersect_points a b p).2

/-- C32: `contains(other)` for a non empty `other` iff every point of `other` is in the box. -/
theorem C32_contains_iff (a b : Box F) (hb : b.isNotEmpty = true) :
    a.contains b = true ↔ ∀ p, InClosed b p → InClosed a p := by
  unfold Box.isNotEmpty vecGeq at hb
  simp only [Bool.and_eq_true, decide_eq_true_eq, ge_iff_le] at hb
  obtain ⟨⟨b1, b2⟩, b3⟩ := hb
  unfold Box.contains vecLeq vecGeq InClosed
  simp only [Bool.and_eq_true, decide_eq_true_eq, ge_iff_le]
  constructor
  · rintro ⟨⟨⟨h1, h2⟩, h3⟩, ⟨h4, h5⟩, h6⟩ p ⟨p1, p2, p3⟩
    exact ⟨⟨h1.trans p1.1, p1.2.trans h4⟩, ⟨h2.trans p2.1, p2.2.trans h5⟩, ⟨h3.trans p3.1, p3.2.trans h6⟩⟩
  · intro h
    have l := h b.lower ⟨⟨le_refl _, b1⟩, ⟨le_refl _, b2⟩, ⟨le_refl _, b3⟩⟩
    have u := h b.upper ⟨⟨b1, le_refl _⟩, ⟨b2, le_refl _⟩, ⟨b3, le_refl _⟩⟩
    exact ⟨⟨⟨l.1.1, l.2.1.1⟩, l.2.2.1⟩, ⟨u.1.2, u.2.1.2⟩, u.2.2.2⟩

/-- C32: the union is the smallest box that contains both. -/
theorem C32_union_least (a b c : Box F) :
    (a.union b).contains a = true ∧ (a.union b).contains b = true ∧
    (c.contains (a.union b) = true ↔ c.contains a = true ∧ c.contains b = true) := by
  unfold Box.union Box.contains vecLeq vecGeq V3.vmin V3.vmax
  simp only [Bool.and_eq_true, decide_eq_true_eq, ge_iff_le, min_le_left, min_le_right, le_max_left, le_max_right, and_self,
    true_and, le_min_iff, max_le_iff]
  constructor
  · intro h; simp only [h, and_self]
  · intro h; simp only [h, and_self]

/-- C32: clamping to a non empty box gives a point of the box, and does not move the points of the box. -/
theorem C32_clamp (a : Box F) (h : a.isNotEmpty = true) (p : V3 F) :
    InClosed a (a.clampCoord p) ∧ (InClosed a p → a.clampCoord p = p) := by
  unfold Box.isNotEmpty vecGeq at h
  simp only [Bool.and_eq_true, decide_eq_true_eq, ge_iff_le] at h
  obtain ⟨⟨b1, b2⟩, b3⟩ := h
  constructor
  · unfold InClosed Box.clampCoord V3.vmin V3.vmax
    exact ⟨⟨le_min (le_max_right _ _) b1, min_le_right _ _⟩, ⟨le_min (le_max_right _ _) b2, min_le_right _ _⟩,
      ⟨le_min (le_max_right _ _) b3, min_le_right _ _⟩⟩
  · rintro ⟨⟨h1, h2⟩, ⟨h3, h4⟩, ⟨h5, h6⟩⟩
    obtain ⟨px, py, pz⟩ := p
    simp only [Box.clampCoord, V3.vmin, V3.vmax]
    simp only at h1 h2 h3 h4 h5 h6
    rw [max_eq_left h1, max_eq_left h3, max_eq_left h5, min_eq_left h2, min_eq_left h4, min_eq_left h6]

/-- C32 (limit): a box with equal corners is reported non empty although no position is contained in it. -/
theorem C32_degenerate_box (c p : V3 F) : (Box.mk c c).isNotEmpty = true ∧ (Box.mk c c).containPos p = false := by
  constructor
  · simp [Box.isNotEmpty, vecGeq]
  · cases h : (Box.mk c c).containPos p with
    | false => rfl
    | true =>
      have := ((C32_half_open_membership _ _).1.1 h).1
      exact absurd (this.1.trans_lt this.2) (lt_irrefl _)
end

theorem slab {K : Type} [Field K] [LinearOrder K] [IsStrictOrderedRing K] (lo hi o d t : K) (hd : d ≠ 0) (h : lo ≤ hi) :
    (lo ≤ o + t * d ∧ o + t * d ≤ hi) ↔ (min ((lo - o) * d⁻¹) ((hi - o) * d⁻¹) ≤ t ∧ t ≤ max ((lo - o) * d⁻¹) ((hi - o) * d⁻¹)) := by
  rcases lt_or_gt_of_ne hd with hn | hp
  · have hle : (hi - o) * d⁻¹ ≤ (lo - o) * d⁻¹ := mul_le_mul_of_nonpos_right (by linarith) (inv_nonpos.2 hn.le)
    rw [min_eq_right hle, max_eq_left hle, ← div_eq_mul_inv, ← div_eq_mul_inv, div_le_iff_of_neg hn, le_div_iff_of_neg hn]
    constructor
    · rintro ⟨h1, h2⟩; constructor <;> linarith
    · rintro ⟨h1, h2⟩; constructor <;> linarith
  · have hle : (lo - o) * d⁻¹ ≤ (hi - o) * d⁻¹ := mul_le_mul_of_nonneg_right (by linarith) (inv_nonneg.2 hp.le)
    rw [min_eq_left hle, max_eq_right hle, ← div_eq_mul_inv, ← div_eq_mul_inv, div_le_iff₀ hp, le_div_iff₀ hp]
    constructor
    · rintro ⟨h1, h2⟩; constructor <;> linarith
    · rintro ⟨h1, h2⟩; constructor <;> linarith

/-- C32: the ray test, in exact arithmetic and for a direction without zero component: it holds iff the *line* of the ray meets the
closed box (parameters behind the origin count as well). -/
theorem C32_ray_test {K : Type} [Field K] [LinearOrder K] [IsStrictOrderedRing K] (a : Box K) (h : a.isNotEmpty = true) (o d : V3 K)
    (hx : d.x ≠ 0) (hy : d.y ≠ 0) (hz : d.z ≠ 0) :
    a.intersectRay o ⟨d.x⁻¹, d.y⁻¹, d.z⁻¹⟩ = true ↔ ∃ t, InClosed a ⟨o.x + t * d.x, o.y + t * d.y, o.z + t * d.z⟩ := by
  unfold Box.isNotEmpty vecGeq at h
  simp only [Bool.and_eq_true, decide_eq_true_eq, ge_iff_le] at h
  obtain ⟨⟨b1, b2⟩, b3⟩ := h
  unfold Box.intersectRay InClosed
  simp only [ge_iff_le, decide_eq_true_eq]
  constructor
  · intro hle
    rw [max_le_iff, max_le_iff, le_min_iff, le_min_iff, le_min_iff, le_min_iff, le_min_iff, le_min_iff] at hle
    obtain ⟨⟨⟨⟨x1, x2⟩, x3⟩, ⟨y1, y2⟩, y3⟩, ⟨z1, z2⟩, z3⟩ := hle
    refine ⟨max (max (min ((a.lower.x - o.x) * d.x⁻¹) ((a.upper.x - o.x) * d.x⁻¹)) (min ((a.lower.y - o.y) * d.y⁻¹) ((a.upper.y - o.y) * d.y⁻¹)))
      (min ((a.lower.z - o.z) * d.z⁻¹) ((a.upper.z - o.z) * d.z⁻¹)), ?_, ?_, ?_⟩
    · rw [slab _ _ _ _ _ hx b1]
      exact ⟨(le_max_left _ _).trans (le_max_left _ _), max_le (max_le x1 y1) z1⟩
    · rw [slab _ _ _ _ _ hy b2]
      exact ⟨(le_max_right _ _).trans (le_max_left _ _), max_le (max_le x2 y2) z2⟩
    · rw [slab _ _ _ _ _ hz b3]
      exact ⟨le_max_right _ _, max_le (max_le x3 y3) z3⟩
  · rintro ⟨t, h1, h2, h3⟩
    rw [slab _ _ _ _ _ hx b1] at h1
    rw [slab _ _ _ _ _ hy b2] at h2
    rw [slab _ _ _ _ _ hz b3] at h3
    exact (max_le (max_le h1.1 h2.1) h3.1).trans (le_min (le_min h1.2 h2.2) h3.2)

example : (Box.mk (F := Nat) ⟨0, 0, 0⟩ ⟨4, 4, 4⟩).intersect ⟨⟨2, 3, 4⟩, ⟨9, 9, 9⟩⟩ = ⟨⟨2, 3, 4⟩, ⟨4, 4, 4⟩⟩ ∧
    domainAreConnected (Box.mk (F := Nat) ⟨0, 0, 0⟩ ⟨4, 4, 4⟩) ⟨⟨2, 3, 4⟩, ⟨9, 9, 9⟩⟩ = true ∧
    domainHaveIntersect (Box.mk (F := Nat) ⟨0, 0, 0⟩ ⟨4, 4, 4⟩) ⟨⟨2, 3, 4⟩, ⟨9, 9, 9⟩⟩ = false ∧
    (Box.mk (F := Nat) ⟨0, 0, 0⟩ ⟨4, 4, 4⟩).isNotEmpty = true ∧
    (Box.mk (F := Nat) ⟨0, 0, 0⟩ ⟨4, 4, 4⟩).contains ⟨⟨2, 3, 3⟩, ⟨3, 3, 3⟩⟩ = true := by
  refine ⟨rfl, by decide, by decide, by decide, by decide⟩

example : (Box.mk (F := Rat) ⟨1, 1, 1⟩ ⟨2, 2, 2⟩).intersectRay ⟨0, 0, 0⟩ ⟨1, 1, 1⟩ = true ∧
    (Box.mk (F := Rat) ⟨1, 1, 1⟩ ⟨2, 2, 2⟩).intersectRay ⟨0, 0, 0⟩ ⟨1, -1, 1⟩ = false := by
  refine ⟨by decide +kernel, by decide +kernel⟩

end Shamrock
