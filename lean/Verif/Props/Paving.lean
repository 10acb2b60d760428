import Verif.Model.Paving
import Mathlib.Tactic.FieldSimp
import Mathlib.Tactic.Ring
import Mathlib.Tactic.Linarith
import Mathlib.Tactic.NormNum
import Mathlib.Tactic.FinCases
import Mathlib.Algebra.BigOperators.Fin
import Mathlib.Tactic.LinearCombination
/-!
C75: the paving functions.
-/
namespace Shamrock.Paving

noncomputable section

variable {P : Pav}

/-- The box of the paving has a positive size. -/
def Pav.Ok (P : Pav) : Prop := ∀ a, 0 < P.size a

/-- A point of the closed box. -/
def InBox (P : Pav) (x : Pt) : Prop := ∀ a, |x a - P.center a| ≤ P.size a / 2

/-- A point of the open box. -/
def Inside (P : Pav) (x : Pt) : Prop := ∀ a, |x a - P.center a| < P.size a / 2

theorem m1pown_cases (n : Int) : m1pown n = 1 ∨ m1pown n = -1 := by
  unfold m1pown
  split_ifs
  · exact Or.inl rfl
  · exact Or.inr rfl

/-- The map moves the centre of the box and keeps or mirrors the distance to it. -/
theorem off_form (P : Pav) (x : Pt) (i : Idx) (a : Fin 3) : ∃ s : ℝ, (s = 1 ∨ s = -1) ∧
    ∀ y : Pt, y a + off P y i a = P.center a + s * (y a - P.center a) := by
  by_cases h : P.per a = true
  · refine ⟨1, Or.inl rfl, fun y => ?_⟩
    unfold off
    rw [if_pos h]; ring
  · refine ⟨m1pown (i a), m1pown_cases _, fun y => ?_⟩
    unfold off
    rw [if_neg h]; ring

/-- C75 (inverse). `f` and `f_inv` are inverse to each other, for every image, with and without shear, periodic or reflective. -/
theorem C75_inverse (P : Pav) (x : Pt) (i : Idx) : fGenInv P (fGen P x i) i = x ∧ fGen P (fGenInv P x i) i = x ∧
    fShearInv P (fShear P x i) i = x ∧ fShear P (fShearInv P x i) i = x := by
  have key : ∀ a, ∃ s : ℝ, s * s = 1 ∧ ∀ y : Pt, y a + off P y i a = P.center a + s * (y a - P.center a) := by
    intro a
    obtain ⟨s, hs, h⟩ := off_form P x i a
    exact ⟨s, by rcases hs with rfl | rfl <;> norm_num, h⟩
  refine ⟨?_, ?_, ?_, ?_⟩ <;> funext a <;> obtain ⟨s, hs, h⟩ := key a
  · unfold fGenInv fGen
    try dsimp only
    have h1 := h x
    have h2 := h fun a => x a + P.size a * i a + off P x i a - P.size a * i a
    try dsimp only at h2
    linear_combination h2 + s * h1 + (x a - P.center a) * hs
  · unfold fGenInv fGen
    try dsimp only
    have h1 := h fun a => x a - P.size a * i a
    have h2 := h fun a => x a - P.size a * i a + off P (fun a => x a - P.size a * i a) i a
    try dsimp only at h1 h2
    linear_combination h2 + s * h1 + (x a - P.size a * i a - P.center a) * hs
  · unfold fShearInv fShear
    try dsimp only
    have h1 := h x
    have h2 := h fun a => x a + P.size a * i a + off P x i a + shearOff P i a - P.size a * i a - shearOff P i a
    try dsimp only at h2
    linear_combination h2 + s * h1 + (x a - P.center a) * hs
  · unfold fShearInv fShear
    try dsimp only
    have h1 := h fun a => x a - P.size a * i a - shearOff P i a
    have h2 := h fun a => x a - P.size a * i a - shearOff P i a + off P (fun a => x a - P.size a * i a - shearOff P i a) i a
    try dsimp only at h1 h2
    linear_combination h2 + s * h1 + (x a - P.size a * i a - shearOff P i a - P.center a) * hs

theorem f_dist (P : Pav) (x : Pt) (i : Idx) (a : Fin 3) :
    |fShear P x i a - shearOff P i a - P.size a * i a - P.center a| = |x a - P.center a| := by
  obtain ⟨s, hs, h⟩ := off_form P x i a
  have h1 := h x
  have : fShear P x i a - shearOff P i a - P.size a * i a - P.center a = s * (x a - P.center a) := by
    unfold fShear
    linear_combination h1
  rw [this, abs_mul]
  rcases hs with rfl | rfl <;> simp

/-- Without shear the two functions agree. -/
theorem gen_shear (P : Pav) (x : Pt) (i : Idx) : fGen P x i = fShear { P with shear := 0 } x i := by
  funext a
  unfold fShear shearOff
  dsimp only
  rw [zero_mul, add_zero]
  rfl

theorem near_int {u s : ℝ} (hs : 0 < s) : |u - s * (⌊u / s + 1 / 2⌋ : Int)| ≤ s / 2 := by
  have h1 := Int.floor_le (u / s + 1 / 2)
  have h2 := Int.lt_floor_add_one (u / s + 1 / 2)
  have hu : u = s * (u / s) := by field_simp
  rw [abs_le]
  constructor <;> nlinarith

/-- C75 (cover). Every point of space is in an image of the closed box. -/
theorem C75_cover (hP : P.Ok) (p : Pt) : ∃ (i : Idx) (x : Pt), InBox P x ∧ fShear P x i = p := by
  let j : Int := ⌊(p 1 - P.center 1) / P.size 1 + 1 / 2⌋
  let k : Int := ⌊(p 2 - P.center 2) / P.size 2 + 1 / 2⌋
  let i : Int := ⌊(p 0 - P.shear * j - P.center 0) / P.size 0 + 1 / 2⌋
  have hf := (C75_inverse P p (mk i j k)).2.2.2
  refine ⟨mk i j k, fShearInv P p (mk i j k), fun a => ?_, hf⟩
  rw [← f_dist P _ (mk i j k) a, hf]
  fin_cases a
  · have := near_int (u := p 0 - P.shear * j - P.center 0) (hP 0)
    refine le_of_eq_of_le (congrArg abs ?_) this
    show p 0 - P.shear * (j : ℝ) - P.size 0 * (i : ℝ) - P.center 0 = p 0 - P.shear * (j : ℝ) - P.center 0 - P.size 0 * (i : ℝ)
    ring
  · have := near_int (u := p 1 - P.center 1) (hP 1)
    refine le_of_eq_of_le (congrArg abs ?_) this
    show p 1 - P.shear * 0 - P.size 1 * (j : ℝ) - P.center 1 = p 1 - P.center 1 - P.size 1 * (j : ℝ)
    ring
  · have := near_int (u := p 2 - P.center 2) (hP 2)
    refine le_of_eq_of_le (congrArg abs ?_) this
    show p 2 - P.shear * 0 - P.size 2 * (k : ℝ) - P.center 2 = p 2 - P.center 2 - P.size 2 * (k : ℝ)
    ring

theorem int_unique {u s : ℝ} (hs : 0 < s) {i j : Int} (h1 : |u - s * i| < s / 2) (h2 : |u - s * j| ≤ s / 2) : i = j := by
  have a1 := abs_lt.1 h1
  have a2 := abs_le.1 h2
  have b1 : (i : ℝ) < j + 1 := by nlinarith
  have b2 : (j : ℝ) < i + 1 := by nlinarith
  have c1 : i < j + 1 := by exact_mod_cast b1
  have c2 : j < i + 1 := by exact_mod_cast b2
  omega

/-- C75 (disjoint). A point in an image of the open box is in no other image, and is the image of one point only. -/
theorem C75_disjoint (hP : P.Ok) {x x' : Pt} {i i' : Idx} (hx : Inside P x) (hx' : InBox P x') (h : fShear P x i = fShear P x' i') :
    i = i' ∧ x = x' := by
  have h1 : ∀ a, |fShear P x i a - shearOff P i a - P.center a - P.size a * i a| < P.size a / 2 := by
    intro a
    rw [sub_right_comm, f_dist]
    exact hx a
  have h2 : ∀ a, |fShear P x i a - shearOff P i' a - P.center a - P.size a * i' a| ≤ P.size a / 2 := by
    intro a
    rw [sub_right_comm, h, f_dist]
    exact hx' a
  have ha : ∀ a, a ≠ 0 → i a = i' a := by
    intro a h0
    have e1 := h1 a
    have e2 := h2 a
    unfold shearOff at e1 e2
    rw [if_neg h0] at e1 e2
    exact int_unique (hP a) e1 e2
  have hi : i = i' := by
    funext a
    by_cases h0 : a = 0
    · subst h0
      have e1 := h1 0
      have e2 := h2 0
      unfold shearOff at e1 e2
      rw [← ha 1 (by decide)] at e2
      exact int_unique (hP 0) e1 e2
    · exact ha a h0
  refine ⟨hi, ?_⟩
  rw [← (C75_inverse P x i).2.2.1, h, hi, (C75_inverse P x' i').2.2.1]

theorem mem_intsTo {low z : Int} {u : ℝ} : z ∈ intsTo low u ↔ low ≤ z ∧ (z : ℝ) ≤ u := by
  unfold intsTo
  rw [← Int.le_floor, List.mem_map]
  constructor
  · rintro ⟨n, hn, rfl⟩
    have := List.mem_range.1 hn
    omega
  · rintro ⟨h1, h2⟩
    exact ⟨(z - low).toNat, List.mem_range.2 (by omega), by omega⟩

/-- C75 (indices; box with its lower corner at the origin). Every image of the open box that has a point in common with the region is
listed; conversely the closed image of every index listed has a point in common with the region. Missing: other boxes, for which it is false
(`C75_index_defect`). -/
theorem C75_index_partial (hP : P.Ok) (hc : ∀ a, P.center a = P.size a / 2) (lo hi : Pt) (hlh : ∀ a, lo a ≤ hi a) :
    (∀ (i : Idx) (x : Pt), Inside P x → (∀ a, lo a ≤ fGen P x i a ∧ fGen P x i a ≤ hi a) → (i 0, i 1, i 2) ∈ indexGen P lo hi) ∧
      ∀ i j k : Int, (i, j, k) ∈ indexGen P lo hi → ∃ x, InBox P x ∧ ∀ a, lo a ≤ fGen P x (mk i j k) a ∧ fGen P x (mk i j k) a ≤ hi a := by
  have hd : ∀ (x : Pt) (i : Idx) (a : Fin 3), |fGen P x i a - P.size a * i a - P.center a| = |x a - P.center a| := by
    intro x i a
    have := f_dist { P with shear := 0 } x i a
    rw [← gen_shear] at this
    unfold shearOff at this
    dsimp only at this
    rw [zero_mul, sub_zero] at this
    exact this
  have hmem : ∀ i j k : Int, (i, j, k) ∈ indexGen P lo hi ↔ (⌊lo 0 / P.size 0⌋ ≤ i ∧ (i : ℝ) ≤ hi 0 / P.size 0) ∧
      (⌊lo 1 / P.size 1⌋ ≤ j ∧ (j : ℝ) ≤ hi 1 / P.size 1) ∧ (⌊lo 2 / P.size 2⌋ ≤ k ∧ (k : ℝ) ≤ hi 2 / P.size 2) := by
    intro i j k
    unfold indexGen
    simp only [List.mem_flatMap, List.mem_map, Prod.mk.injEq, mem_intsTo]
    constructor
    · rintro ⟨i', hi', j', hj', k', hk', rfl, rfl, rfl⟩
      exact ⟨hi', hj', hk'⟩
    · rintro ⟨h1, h2, h3⟩
      exact ⟨i, h1, j, h2, k, h3, rfl, rfl, rfl⟩
  constructor
  · intro i x hx hr
    have hax : ∀ a, ⌊lo a / P.size a⌋ ≤ i a ∧ (i a : ℝ) ≤ hi a / P.size a := by
      intro a
      have h1 := hx a
      rw [← hd x i a, hc a, abs_lt] at h1
      have h2 := hr a
      constructor
      · rw [← Int.lt_add_one_iff, Int.floor_lt, div_lt_iff₀ (hP a)]
        push_cast
        nlinarith
      · rw [le_div_iff₀ (hP a)]
        nlinarith
    exact (hmem _ _ _).2 ⟨hax 0, hax 1, hax 2⟩
  · intro i j k h
    obtain ⟨h0, h1, h2⟩ := (hmem i j k).1 h
    have hax : ∀ a, ⌊lo a / P.size a⌋ ≤ mk i j k a ∧ (mk i j k a : ℝ) ≤ hi a / P.size a := by
      intro a
      fin_cases a
      · exact h0
      · exact h1
      · exact h2
    have hf := (C75_inverse P (fun a => max (lo a) (P.size a * mk i j k a)) (mk i j k)).2.1
    refine ⟨fGenInv P (fun a => max (lo a) (P.size a * mk i j k a)) (mk i j k), fun a => ?_, fun a => ?_⟩
    · rw [← hd _ (mk i j k) a, hf, hc a]
      have e := (hax a).1
      rw [← Int.lt_add_one_iff, Int.floor_lt, div_lt_iff₀ (hP a)] at e
      push_cast at e
      have hp := hP a
      rw [abs_le]
      dsimp only
      rcases max_cases (lo a) (P.size a * mk i j k a) with ⟨h, h'⟩ | ⟨h, h'⟩ <;> rw [h] <;> constructor <;> nlinarith
    · rw [hf]
      have e := (hax a).2
      rw [le_div_iff₀ (hP a)] at e
      refine ⟨le_max_left _ _, max_le (hlh a) ?_⟩
      rw [mul_comm]
      exact e

/-- The image of the open box lies strictly between the corners of `f_aabb`. -/
theorem mapped_lt (i : Idx) {x : Pt} (hx : Inside P x) (a : Fin 3) : (mapped P i).1 a < fShear P x i a ∧ fShear P x i a < (mapped P i).2 a := by
  obtain ⟨s, hs, h⟩ := off_form P x i a
  have e : ∀ y : Pt, fShear P y i a = P.center a + s * (y a - P.center a) + P.size a * i a + shearOff P i a := by
    intro y
    unfold fShear
    linear_combination h y
  have hx := abs_lt.1 (hx a)
  unfold mapped
  dsimp only
  rw [e, e, e]
  rcases hs with rfl | rfl <;> split_ifs <;> constructor <;> linarith

/-- C75 (indices with shear; box with its lower corner at the origin). Every image of the open box that has a point in common with the
inside of the region is listed. Missing: other boxes, for which it is false (`C75_index_defect`). -/
theorem C75_index_shear_partial (hP : P.Ok) (hc : ∀ a, P.center a = P.size a / 2) (lo hi : Pt) (i : Idx) (x : Pt) (hx : Inside P x)
    (hr : ∀ a, lo a < fShear P x i a ∧ fShear P x i a < hi a) : (i 0, i 1, i 2) ∈ indexShear P lo hi := by
  have hb : ∀ a, |fShear P x i a - shearOff P i a - P.size a * i a - P.center a| < P.size a / 2 := fun a => by rw [f_dist]; exact hx a
  have hax : ∀ a, a ≠ 0 → ⌊lo a / P.size a⌋ ≤ i a ∧ (i a : ℝ) ≤ hi a / P.size a := by
    intro a h0
    have h1 := hb a
    unfold shearOff at h1
    rw [if_neg h0, hc a, abs_lt] at h1
    have h2 := hr a
    constructor
    · rw [← Int.lt_add_one_iff, Int.floor_lt, div_lt_iff₀ (hP a)]
      push_cast
      nlinarith
    · rw [le_div_iff₀ (hP a)]
      nlinarith
  have hq : (i 1 : ℝ) * P.shear / P.size 0 * P.size 0 = i 1 * P.shear := div_mul_cancel₀ _ (hP 0).ne'
  have hq1 := Int.floor_le ((i 1 : ℝ) * P.shear / P.size 0)
  have hq2 := Int.lt_floor_add_one ((i 1 : ℝ) * P.shear / P.size 0)
  have h0 := hb 0
  unfold shearOff at h0
  rw [if_pos rfl, hc 0, abs_lt] at h0
  have hr0 := hr 0
  have hs := hP 0
  unfold indexShear
  simp only [List.mem_flatMap, mem_intsTo]
  refine ⟨i 0 + ⌊(i 1 : ℝ) * P.shear / P.size 0⌋, ⟨?_, ?_⟩, i 1, hax 1 (by decide), i 2, hax 2 (by decide), ?_⟩
  · have : ⌊lo 0 / P.size 0⌋ < i 0 + ⌊(i 1 : ℝ) * P.shear / P.size 0⌋ + 2 := by
      rw [Int.floor_lt, div_lt_iff₀ hs]
      push_cast
      nlinarith
    omega
  · rw [← sub_le_iff_le_add, le_div_iff₀ hs]
    push_cast
    nlinarith
  · rw [add_sub_cancel_right]
    have hmk : mk (i 0) (i 1) (i 2) = i := by
      funext a
      fin_cases a <;> rfl
    rw [hmk, if_pos, List.mem_singleton]
    intro a
    have := mapped_lt i hx a
    exact (max_lt this.1 (hr a).1).trans (lt_min this.2 (hr a).2)

/-- A box of size 1 with its lower corner at the origin, reflective along `x`, with shear. -/
def cornerPav : Pav := ⟨fun _ => 1, fun _ => 1 / 2, fun a => if a = 0 then false else true, 3 / 10⟩

/-- A case of the theorems. -/
example : cornerPav.Ok ∧ (∀ a, cornerPav.center a = cornerPav.size a / 2) ∧ Inside cornerPav (fun _ => 1 / 4) :=
  ⟨fun _ => one_pos, fun _ => rfl, fun _ => by norm_num [cornerPav]⟩

/-- A periodic box of size 1 around the origin. -/
def centrePav : Pav := ⟨fun _ => 1, fun _ => 0, fun _ => true, 0⟩

/-- Violation: for a box around the origin the point 0.7 on every axis lies inside the image 1, 1, 1 of the box (and so, by
`C75_disjoint`, in no other); the list of the images that meet the region from 0.6 to 0.8 is the image 0, 0, 0 only. With or without shear. -/
theorem C75_index_defect : Inside centrePav (fun _ => -3 / 10) ∧ fGen centrePav (fun _ => -3 / 10) (fun _ => 1) = (fun _ => 7 / 10) ∧
    indexGen centrePav (fun _ => 6 / 10) (fun _ => 8 / 10) = [(0, 0, 0)] ∧
    (1, 1, 1) ∉ indexShear centrePav (fun _ => 6 / 10) (fun _ => 8 / 10) := by
  have f1 : ⌊(6 / 10 : ℝ) / 1⌋ = 0 := by rw [Int.floor_eq_iff]; norm_num
  have f2 : ⌊(8 / 10 : ℝ) / 1⌋ = 0 := by rw [Int.floor_eq_iff]; norm_num
  have hl : intsTo ⌊(6 / 10 : ℝ) / 1⌋ (8 / 10 / 1) = [0] := by
    unfold intsTo
    rw [f1, f2]
    rfl
  refine ⟨fun _ => by norm_num [centrePav, abs_lt], ?_, ?_, ?_⟩
  · funext a
    unfold fGen off centrePav
    norm_num
  · unfold indexGen centrePav
    dsimp only
    rw [hl]
    rfl
  · unfold indexShear centrePav
    dsimp only
    rw [hl]
    simp only [List.mem_flatMap]
    rintro ⟨i, -, j, hj, k, -, h⟩
    have hj0 : j = 0 := List.mem_singleton.1 hj
    subst hj0
    split_ifs at h
    · have h1 : (1 : Int) = 0 := congrArg (fun t : Int × Int × Int => t.2.1) (List.mem_singleton.1 h)
      exact absurd h1 (by decide)
    · exact absurd h List.not_mem_nil

end

end Shamrock.Paving
