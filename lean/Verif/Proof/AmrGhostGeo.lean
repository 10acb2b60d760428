import Verif.Model.AmrGhost
import Mathlib.Tactic.Linarith
import Mathlib.Tactic.Ring
/-! Geometry of the paving functions. -/
namespace Shamrock.Gz
open Amr (coordX getIndex)

/-- Specification: the image of coordinate `x` in tile `i` along one axis. Periodic: moved by `i` times the size of the domain `[lo, hi]`. Reflective: tile
`i` is the mirror image of tile `i - 1` in the wall between them. -/
def axisImage (g : GhostType) (lo hi x i : Int) : Int :=
  if g = .periodic ∨ i % 2 = 0 then x + (hi - lo) * i else lo + hi - x + (hi - lo) * i

/-- Specification: the image of a point in tile `k`. -/
def image (mode : GMode) (sim : Box Int) (v k : V3 Int) : V3 Int :=
  ⟨axisImage mode.x sim.lower.x sim.upper.x v.x k.x, axisImage mode.y sim.lower.y sim.upper.y v.y k.y, axisImage mode.z sim.lower.z sim.upper.z v.z k.z⟩

/-- Specification: a point of a closed box. -/
def InClosed (b : Box Int) (v : V3 Int) : Prop :=
  (b.lower.x ≤ v.x ∧ v.x ≤ b.upper.x) ∧ (b.lower.y ≤ v.y ∧ v.y ≤ b.upper.y) ∧ (b.lower.z ≤ v.z ∧ v.z ≤ b.upper.z)

/-- Specification: the image of closed box `b` in tile `k` and the closed box `c` have a point in common. -/
def ImageTouches (mode : GMode) (sim : Box Int) (b c : Box Int) (k : V3 Int) : Prop := ∃ v, InClosed b v ∧ InClosed c (image mode sim v k)

/-- Not inverted. -/
def Ordered (b : Box Int) : Prop := b.lower.x ≤ b.upper.x ∧ b.lower.y ≤ b.upper.y ∧ b.lower.z ≤ b.upper.z

/-- Specification: the two directions of an axis are kept (1) or exchanged (-1) in tile `i`. -/
def axisSign (g : GhostType) (i : Int) : Int := if g = .periodic ∨ i % 2 = 0 then 1 else -1

/-- Specification: all sides of the domain have even length. -/
def EvenSides (b : Box Int) : Prop := (b.upper.x - b.lower.x) % 2 = 0 ∧ (b.upper.y - b.lower.y) % 2 = 0 ∧ (b.upper.z - b.lower.z) % 2 = 0

theorem m1pown_eq (n : Int) : m1pown n = if n % 2 = 0 then 1 else -1 := by
  unfold m1pown
  have : n % 2 ^ 32 % 2 = n % 2 := by omega
  rw [this]

/-- The paving of a mode and a domain. -/
def pavOf (mode : GMode) (sim : Box Int) : Paving :=
  ⟨vsubI sim.upper sim.lower, tdiv2 (vaddI sim.upper sim.lower), decide (mode.x = .periodic), decide (mode.y = .periodic), decide (mode.z = .periodic)⟩

theorem half_check (l u : Int) (h : l < u) :
    ((u + l).tdiv 2 - (u - l).tdiv 2 = l ∧ (u + l).tdiv 2 + (u - l).tdiv 2 = u) ↔ (u - l) % 2 = 0 := by
  have h1 : (u - l).tdiv 2 = (u - l) / 2 := Int.tdiv_eq_ediv_of_nonneg (by omega)
  rw [h1]
  rcases Int.le_total 0 (u + l) with h2 | h2
  · rw [Int.tdiv_eq_ediv_of_nonneg h2]; omega
  · have : (u + l).tdiv 2 = -((-(u + l)) / 2) := by
      rw [← Int.neg_neg (u + l), Int.neg_tdiv, Int.tdiv_eq_ediv_of_nonneg (by omega)]; simp
    rw [this]; omega

theorem getPaving_ok (mode : GMode) (sim : Box Int) (h : sim.lower.x < sim.upper.x ∧ sim.lower.y < sim.upper.y ∧ sim.lower.z < sim.upper.z) :
    (EvenSides sim → getPaving mode sim = .ok (pavOf mode sim)) ∧ (¬ EvenSides sim → getPaving mode sim = .throws) := by
  obtain ⟨⟨lx, ly, lz⟩, ux, uy, uz⟩ := sim
  obtain ⟨h1, h2, h3⟩ := h
  dsimp only at h1 h2 h3
  have a1 := half_check lx ux h1
  have a2 := half_check ly uy h2
  have a3 := half_check lz uz h3
  unfold getPaving EvenSides
  dsimp only [vsubI, vaddI, tdiv2]
  simp only [ne_eq, V3.mk.injEq]
  constructor
  · intro h
    have b1 := a1.2 h.1
    have b2 := a2.2 h.2.1
    have b3 := a3.2 h.2.2
    rw [if_neg (by rintro (hh | hh); exacts [hh ⟨b1.1, b2.1, b3.1⟩, hh ⟨b1.2, b2.2, b3.2⟩])]
    rfl
  · intro h
    rw [if_pos]
    by_contra hc
    rw [not_or, not_not, not_not] at hc
    exact h ⟨a1.1 ⟨hc.1.1, hc.2.1⟩, a2.1 ⟨hc.1.2.1, hc.2.2.1⟩, a3.1 ⟨hc.1.2.2, hc.2.2.2⟩⟩

theorem half_mid (l u : Int) (he : (u - l) % 2 = 0) : 2 * (u + l).tdiv 2 = u + l := by
  rcases Int.le_total 0 (u + l) with h2 | h2
  · rw [Int.tdiv_eq_ediv_of_nonneg h2]; omega
  · have : (u + l).tdiv 2 = -((-(u + l)) / 2) := by
      rw [← Int.neg_neg (u + l), Int.neg_tdiv, Int.tdiv_eq_ediv_of_nonneg (by omega)]; simp
    rw [this]; omega

theorem pav1_eq (g : GhostType) (l u x i : Int) (he : (u - l) % 2 = 0) :
    pav1 (decide (g = .periodic)) (u - l) ((u + l).tdiv 2) x i = axisImage g l u x i := by
  have hm := half_mid l u he
  unfold pav1 axisImage
  rw [m1pown_eq]
  generalize (u - l) * i = t
  by_cases h1 : g = .periodic
  · simp [h1]
  · by_cases h2 : i % 2 = 0
    · simp [h1, h2]
    · simp only [h1, h2, decide_false, or_self, if_false, Bool.false_eq_true]
      omega

theorem pavInv1_eq (g : GhostType) (l u x i : Int) (he : (u - l) % 2 = 0) :
    axisImage g l u (pavInv1 (decide (g = .periodic)) (u - l) ((u + l).tdiv 2) x i) i = x := by
  have hm := half_mid l u he
  unfold pavInv1 axisImage
  rw [m1pown_eq]
  generalize (u - l) * i = t
  by_cases h1 : g = .periodic
  · simp [h1]
  · by_cases h2 : i % 2 = 0
    · simp [h1, h2]
    · simp only [h1, h2, decide_false, or_self, if_false, Bool.false_eq_true]
      omega

theorem f_eq (mode : GMode) (sim : Box Int) (he : EvenSides sim) (v k : V3 Int) : (pavOf mode sim).f v k = image mode sim v k := by
  obtain ⟨e1, e2, e3⟩ := he
  unfold Paving.f pavOf image
  dsimp only [vsubI, vaddI, tdiv2]
  rw [pav1_eq _ _ _ _ _ e1, pav1_eq _ _ _ _ _ e2, pav1_eq _ _ _ _ _ e3]

theorem finv_eq (mode : GMode) (sim : Box Int) (he : EvenSides sim) (v k : V3 Int) : image mode sim ((pavOf mode sim).finv v k) k = v := by
  obtain ⟨e1, e2, e3⟩ := he
  unfold Paving.finv pavOf image
  dsimp only [vsubI, vaddI, tdiv2]
  rw [pavInv1_eq _ _ _ _ _ e1, pavInv1_eq _ _ _ _ _ e2, pavInv1_eq _ _ _ _ _ e3]

theorem axisImage_inj (g : GhostType) (l u i : Int) {x y : Int} (h : axisImage g l u x i = axisImage g l u y i) : x = y := by
  unfold axisImage at h
  generalize (u - l) * i = t at h
  split at h <;> omega

/-- Between two values. -/
theorem axisImage_between (g : GhostType) (l u i a b x : Int) (hab : a ≤ b) :
    (a ≤ x ∧ x ≤ b) ↔ ((swap1 (axisImage g l u a i) (axisImage g l u b i)).1 ≤ axisImage g l u x i ∧
      axisImage g l u x i ≤ (swap1 (axisImage g l u a i) (axisImage g l u b i)).2) := by
  unfold axisImage swap1
  generalize (u - l) * i = t
  split <;> split <;> dsimp only <;> omega

/-- The image of a closed box is the closed box of the images. -/
theorem mem_fBox (mode : GMode) (sim : Box Int) (he : EvenSides sim) (b : Box Int) (hb : Ordered b) (k v : V3 Int) :
    InClosed b v ↔ InClosed ((pavOf mode sim).fBox b k) (image mode sim v k) := by
  obtain ⟨h1, h2, h3⟩ := hb
  unfold Paving.fBox InClosed sortBox
  rw [f_eq mode sim he, f_eq mode sim he]
  dsimp only [image]
  rw [axisImage_between mode.x _ _ k.x _ _ _ h1, axisImage_between mode.y _ _ k.y _ _ _ h2, axisImage_between mode.z _ _ k.z _ _ _ h3]

theorem fBox_ordered (mode : GMode) (sim : Box Int) (b : Box Int) (k : V3 Int) : Ordered ((pavOf mode sim).fBox b k) := by
  unfold Paving.fBox sortBox Ordered swap1
  dsimp only
  refine ⟨?_, ?_, ?_⟩ <;> split <;> omega

theorem mem_fBoxInv (mode : GMode) (sim : Box Int) (he : EvenSides sim) (b : Box Int) (hb : Ordered b) (k v : V3 Int) :
    InClosed ((pavOf mode sim).fBoxInv b k) v ↔ InClosed b (image mode sim v k) := by
  have gen : ∀ (g : GhostType) (l u i a b x : Int), (u - l) % 2 = 0 → a ≤ b →
      (((swap1 (pavInv1 (decide (g = .periodic)) (u - l) ((u + l).tdiv 2) a i) (pavInv1 (decide (g = .periodic)) (u - l) ((u + l).tdiv 2) b i)).1 ≤ x ∧
        x ≤ (swap1 (pavInv1 (decide (g = .periodic)) (u - l) ((u + l).tdiv 2) a i) (pavInv1 (decide (g = .periodic)) (u - l) ((u + l).tdiv 2) b i)).2) ↔
        (a ≤ axisImage g l u x i ∧ axisImage g l u x i ≤ b)) := by
    intro g l u i a b x he hab
    have ha := pavInv1_eq g l u a i he
    have hb := pavInv1_eq g l u b i he
    generalize pavInv1 (decide (g = .periodic)) (u - l) ((u + l).tdiv 2) a i = a' at ha ⊢
    generalize pavInv1 (decide (g = .periodic)) (u - l) ((u + l).tdiv 2) b i = b' at hb ⊢
    unfold axisImage at *
    unfold swap1
    generalize (u - l) * i = t at *
    split at ha <;> split <;> dsimp only <;> simp_all <;> omega
  obtain ⟨e1, e2, e3⟩ := he
  obtain ⟨h1, h2, h3⟩ := hb
  unfold Paving.fBoxInv InClosed sortBox Paving.finv pavOf image
  dsimp only [vsubI, vaddI, tdiv2]
  rw [gen mode.x _ _ k.x _ _ v.x e1 h1, gen mode.y _ _ k.y _ _ v.y e2 h2, gen mode.z _ _ k.z _ _ v.z e3 h3]

/-- The test of the code: two closed boxes have a point in common. -/
theorem touch_closed (a b : Box Int) (ha : Ordered a) (hb : Ordered b) : (a.intersect b).isNotEmpty = true ↔ ∃ v, InClosed a v ∧ InClosed b v := by
  simp only [Box.isNotEmpty, Box.intersect, vecGeq, V3.vmax, V3.vmin, Bool.and_eq_true, decide_eq_true_eq, ge_iff_le, max_le_iff, le_min_iff]
  obtain ⟨a1, a2, a3⟩ := ha
  obtain ⟨b1, b2, b3⟩ := hb
  constructor
  · rintro ⟨⟨h1, h2⟩, h3⟩
    refine ⟨⟨max a.lower.x b.lower.x, max a.lower.y b.lower.y, max a.lower.z b.lower.z⟩, ?_, ?_⟩
    · exact ⟨⟨le_max_left _ _, max_le h1.1.1 h1.1.2⟩, ⟨le_max_left _ _, max_le h2.1.1 h2.1.2⟩, le_max_left _ _, max_le h3.1.1 h3.1.2⟩
    · exact ⟨⟨le_max_right _ _, max_le h1.2.1 h1.2.2⟩, ⟨le_max_right _ _, max_le h2.2.1 h2.2.2⟩, le_max_right _ _, max_le h3.2.1 h3.2.2⟩
  · rintro ⟨v, ⟨⟨x1, x2⟩, ⟨x3, x4⟩, x5, x6⟩, ⟨y1, y2⟩, ⟨y3, y4⟩, y5, y6⟩
    refine ⟨⟨⟨⟨?_, ?_⟩, ?_, ?_⟩, ⟨?_, ?_⟩, ?_, ?_⟩, ⟨?_, ?_⟩, ?_, ?_⟩ <;> omega

theorem fBoxInv_ordered (mode : GMode) (sim : Box Int) (b : Box Int) (k : V3 Int) : Ordered ((pavOf mode sim).fBoxInv b k) := by
  unfold Paving.fBoxInv sortBox Ordered swap1
  dsimp only
  refine ⟨?_, ?_, ?_⟩ <;> split <;> omega

/-- The test on patches and on the tree cells. -/
theorem fBox_touch (mode : GMode) (sim : Box Int) (he : EvenSides sim) (b c : Box Int) (hb : Ordered b) (hc : Ordered c) (k : V3 Int) :
    (c.intersect ((pavOf mode sim).fBox b k)).isNotEmpty = true ↔ ImageTouches mode sim b c k := by
  rw [touch_closed _ _ hc (fBox_ordered mode sim b k)]
  constructor
  · rintro ⟨v, h1, h2⟩
    refine ⟨(pavOf mode sim).finv v k, ?_, ?_⟩
    · rw [mem_fBox mode sim he b hb k, finv_eq mode sim he]; exact h2
    · rw [finv_eq mode sim he]; exact h1
  · rintro ⟨v, h1, h2⟩
    exact ⟨_, h2, (mem_fBox mode sim he b hb k v).1 h1⟩

/-- The test on blocks. -/
theorem fBoxInv_touch (mode : GMode) (sim : Box Int) (he : EvenSides sim) (b c : Box Int) (hb : Ordered b) (hc : Ordered c) (k : V3 Int) :
    (b.intersect ((pavOf mode sim).fBoxInv c k)).isNotEmpty = true ↔ ImageTouches mode sim b c k := by
  rw [touch_closed _ _ hb (fBoxInv_ordered mode sim c k)]
  constructor
  · rintro ⟨v, h1, h2⟩
    exact ⟨v, h1, (mem_fBoxInv mode sim he c hc k v).1 h2⟩
  · rintro ⟨v, h1, h2⟩
    exact ⟨v, h1, (mem_fBoxInv mode sim he c hc k v).2 h2⟩

/-- Specification: `a` is part of `b`. -/
def InBoxC (a b : Box Int) : Prop :=
  (b.lower.x ≤ a.lower.x ∧ a.upper.x ≤ b.upper.x) ∧ (b.lower.y ≤ a.lower.y ∧ a.upper.y ≤ b.upper.y) ∧ (b.lower.z ≤ a.lower.z ∧ a.upper.z ≤ b.upper.z)

theorem InClosed.mono {a b : Box Int} (h : InBoxC a b) {v : V3 Int} (hv : InClosed a v) : InClosed b v := by
  obtain ⟨⟨h1, h2⟩, ⟨h3, h4⟩, h5, h6⟩ := h
  obtain ⟨⟨v1, v2⟩, ⟨v3, v4⟩, v5, v6⟩ := hv
  refine ⟨⟨?_, ?_⟩, ⟨?_, ?_⟩, ?_, ?_⟩ <;> omega

/-- A tile touches the domain only if it is a neighbour. -/
theorem axis_near (g : GhostType) (l u i x : Int) (h : l < u) (h1 : l ≤ x ∧ x ≤ u) (h2 : l ≤ axisImage g l u x i ∧ axisImage g l u x i ≤ u) : -1 ≤ i ∧ i ≤ 1 := by
  have hb : l + (u - l) * i ≤ axisImage g l u x i ∧ axisImage g l u x i ≤ u + (u - l) * i := by
    unfold axisImage
    generalize (u - l) * i = t
    split <;> omega
  constructor
  · by_contra hc
    have : (u - l) * i ≤ (u - l) * (-2) := Int.mul_le_mul_of_nonneg_left (by omega) (by omega)
    omega
  · by_contra hc
    have : (u - l) * 2 ≤ (u - l) * i := Int.mul_le_mul_of_nonneg_left (by omega) (by omega)
    omega

/-! ### Cells of a block -/

/-- Specification: cell `c` of the block `b` (two cells per side). -/
def blockCell (b : Box Int) (c : Nat) : Box Int :=
  ⟨⟨b.lower.x + (coordX c).1 * ((b.upper.x - b.lower.x) / 2), b.lower.y + (coordX c).2.1 * ((b.upper.y - b.lower.y) / 2),
    b.lower.z + (coordX c).2.2 * ((b.upper.z - b.lower.z) / 2)⟩,
   ⟨b.lower.x + ((coordX c).1 + 1) * ((b.upper.x - b.lower.x) / 2), b.lower.y + ((coordX c).2.1 + 1) * ((b.upper.y - b.lower.y) / 2),
    b.lower.z + ((coordX c).2.2 + 1) * ((b.upper.z - b.lower.z) / 2)⟩⟩

/-- Position of a cell along an axis after the image. -/
def flip1 (s : Int) (x : Nat) : Nat := if s = 1 then x else 1 - x

/-- The cell of the image block that is the image of cell `c`. -/
def flipCell (s : V3 Int) (c : Nat) : Nat := getIndex (flip1 s.x (coordX c).1) (flip1 s.y (coordX c).2.1) (flip1 s.z (coordX c).2.2)

/-- The three signs of a tile. -/
def signs (mode : GMode) (k : V3 Int) : V3 Int := ⟨axisSign mode.x k.x, axisSign mode.y k.y, axisSign mode.z k.z⟩

theorem axisSign_or (g : GhostType) (i : Int) : axisSign g i = 1 ∨ axisSign g i = -1 := by
  unfold axisSign; split <;> simp

theorem axisImage_lin (g : GhostType) (l u x i : Int) : axisImage g l u x i = axisSign g i * x + axisImage g l u 0 i := by
  unfold axisImage axisSign
  generalize (u - l) * i = t
  split <;> omega

theorem mulVec_eq (mode : GMode) (sim : Box Int) (he : EvenSides sim) (k : V3 Int) : mulVec (pavOf mode sim) k = signs mode k := by
  unfold mulVec signs
  rw [f_eq mode sim he, f_eq mode sim he]
  unfold vsubI image
  dsimp only
  rw [axisImage_lin mode.x _ _ 1, axisImage_lin mode.y _ _ 1, axisImage_lin mode.z _ _ 1]
  simp only [mul_one, add_sub_cancel_right]

theorem cellPermut_eq (mode : GMode) (sim : Box Int) (he : EvenSides sim) (k : V3 Int) : cellPermut (pavOf mode sim) k = (List.range 8).map (flipCell (signs mode k)) := by
  have hc : coordsMapped (pavOf mode sim) k = (List.range 8).map fun i => image mode sim ⟨((coordX i).1 : Int), ((coordX i).2.1 : Int), ((coordX i).2.2 : Int)⟩ k := by
    unfold coordsMapped
    refine List.map_congr_left fun i _ => ?_
    rw [f_eq mode sim he]
  unfold cellPermut
  rw [hc]
  have hx := axisImage_lin mode.x sim.lower.x sim.upper.x 1 k.x
  have hy := axisImage_lin mode.y sim.lower.y sim.upper.y 1 k.y
  have hz := axisImage_lin mode.z sim.lower.z sim.upper.z 1 k.z
  have h8 : List.range 8 = [0, 1, 2, 3, 4, 5, 6, 7] := rfl
  rw [h8]
  simp only [List.map_cons, List.map_nil, image, coordX, signs, minCoord, List.tail_cons, List.headD_cons, List.foldl_cons, List.foldl_nil, V3.min, flipCell, Nat.reduceMod, Nat.reduceDiv, Nat.cast_zero, Nat.cast_one, Nat.zero_mod, Nat.zero_div, hx, hy, hz]
  generalize axisImage mode.x sim.lower.x sim.upper.x 0 k.x = tx
  generalize axisImage mode.y sim.lower.y sim.upper.y 0 k.y = ty
  generalize axisImage mode.z sim.lower.z sim.upper.z 0 k.z = tz
  rcases axisSign_or mode.x k.x with sx | sx <;> rcases axisSign_or mode.y k.y with sy | sy <;> rcases axisSign_or mode.z k.z with sz | sz <;>
    rw [sx, sy, sz] <;> simp [flip1, castU32, getIndex]

end Shamrock.Gz
