import Verif.Proof.FvSlope
import Verif.Props.Fv
import Mathlib.Tactic.FieldSimp
import Mathlib.Tactic.Positivity
import Mathlib.Algebra.Order.Field.Basic
import Mathlib.Algebra.Order.Ring.Abs
/-! C61, first part: the limited slopes. The specification (`touching`, `gap`, `meanSlope`, `slopes`, `cellSpec`) is at the head of Proof/FvSlope.lean. -/
namespace Shamrock.Fv
open Amr

/-! ### The limiters -/

theorem vanLeer_same (a b : ℚ) : vanLeerF a b = vanLeerStd a b ∧ vanLeerSym a b = vanLeerStd a b := by
  unfold vanLeerF vanLeerStd vanLeerSym
  dsimp only
  rcases lt_trichotomy (a * b) 0 with h | h | h
  · have hab : a ≠ 0 ∧ b ≠ 0 := ⟨fun e => by simp [e] at h, fun e => by simp [e] at h⟩
    rw [if_neg (not_lt.2 h.le)]
    constructor
    · by_cases hs : a + b = 0
      · rw [hs]; simp
      · split
        · rename_i hf
          exfalso
          have : 0 ≤ a / (a + b) * (1 - a / (a + b)) := mul_nonneg hf.1 (by linarith [hf.2])
          have e : a / (a + b) * (1 - a / (a + b)) = a * b / (a + b) ^ 2 := by field_simp; ring
          rw [e] at this
          have h2 : 0 < (a + b) ^ 2 := by positivity
          have := _root_.div_neg_of_neg_of_pos h h2
          linarith
        · simp
    · have hs : sgn b + sgn a = 0 := by
        unfold sgn
        rcases lt_or_gt_of_ne hab.1 with ha | ha <;> rcases lt_or_gt_of_ne hab.2 with hb | hb
        · exact absurd (mul_pos_of_neg_of_neg ha hb) (not_lt.2 h.le)
        · rw [if_pos hb, if_neg (not_lt.2 ha.le), if_pos ha]; norm_num
        · rw [if_neg (not_lt.2 hb.le), if_pos hb, if_pos ha]; norm_num
        · exact absurd (mul_pos ha hb) (not_lt.2 h.le)
      rw [hs]; simp
  · rcases mul_eq_zero.1 h with rfl | rfl
    · simp
    · simp only [add_zero, mul_zero, gt_iff_lt, lt_self_iff_false, ↓reduceIte, abs_zero, and_true]
      by_cases ha : a = 0
      · simp [ha]
      · rw [div_self ha]; norm_num
  · rw [if_pos h]
    have hs : a + b ≠ 0 := by
      intro e
      have : b = -a := by linarith
      rw [this] at h
      have := sq_nonneg a
      linarith
    constructor
    · have : a / (a + b) ≥ 0 ∧ a / (a + b) ≤ 1 := by
        rcases lt_or_gt_of_ne (show a ≠ 0 from fun e => by simp [e] at h) with ha | ha
        · have hb : b < 0 := by by_contra hb; exact absurd (mul_nonpos_of_nonpos_of_nonneg ha.le (not_lt.1 hb)) (not_le.2 h)
          exact ⟨div_nonneg_of_nonpos ha.le (by linarith : a + b ≤ 0), by rw [div_le_one_of_neg (by linarith)]; linarith⟩
        · have hb : 0 < b := (pos_iff_pos_of_mul_pos h).1 ha
          exact ⟨div_nonneg ha.le (by linarith), by rw [div_le_one (by linarith)]; linarith⟩
      rw [if_pos this]
      field_simp
      ring
    · rw [if_pos (by rw [← abs_mul]; exact abs_pos.2 (ne_of_gt h))]
      unfold sgn
      rcases lt_or_gt_of_ne (show a ≠ 0 from fun e => by simp [e] at h) with ha | ha
      · have hb : b < 0 := by by_contra hb; exact absurd (mul_nonpos_of_nonpos_of_nonneg ha.le (not_lt.1 hb)) (not_le.2 h)
        rw [if_neg (not_lt.2 hb.le), if_pos hb, if_neg (not_lt.2 ha.le), if_pos ha, abs_of_neg ha, abs_of_neg hb]
        rw [show -b + -a = -(a + b) by ring]
        field_simp
        ring
      · have hb : 0 < b := (pos_iff_pos_of_mul_pos h).1 ha
        rw [if_pos hb, if_pos ha, abs_of_pos ha, abs_of_pos hb, show b + a = a + b by ring]
        field_simp
        ring

theorem slopeFn_vanLeer {mode : SlopeMode} (h : mode = .vanLeerF ∨ mode = .vanLeerStd ∨ mode = .vanLeerSym) (a b : ℚ) : slopeFn mode a b = vanLeerStd a b := by
  rcases h with rfl | rfl | rfl
  exacts [(vanLeer_same a b).1, rfl, (vanLeer_same a b).2]

theorem mode_cases (mode : SlopeMode) : mode = .none ∨ mode = .minmod ∨ (mode = .vanLeerF ∨ mode = .vanLeerStd ∨ mode = .vanLeerSym) := by
  cases mode <;> simp

theorem minmod_pos {a b : ℚ} (ha : 0 < a) (hb : 0 < b) : minmod a b = min a b := by
  unfold minmod
  dsimp only
  rw [if_pos (div_pos hb ha)]
  by_cases h : b / a < 1
  · rw [if_pos h, div_mul_cancel₀ _ (ne_of_gt ha), min_eq_right]
    rw [div_lt_one ha] at h; exact h.le
  · rw [if_neg h, one_mul, min_eq_left]
    rw [div_lt_one ha] at h; exact not_lt.1 h

theorem minmod_neg (a b : ℚ) : minmod (-a) (-b) = -minmod a b := by
  unfold minmod
  rw [neg_div_neg_eq]; ring

theorem minmod_zero {a b : ℚ} (h : a * b ≤ 0) : minmod a b = 0 := by
  unfold minmod
  dsimp only
  rw [if_neg, zero_mul]
  rw [not_lt]
  rcases le_total 0 a with ha | ha
  · rcases eq_or_lt_of_le ha with rfl | ha
    · simp
    · exact div_nonpos_of_nonpos_of_nonneg (by by_contra hb; exact absurd (mul_pos ha (not_le.1 hb)) (not_lt.2 h)) ha.le
  · rcases eq_or_lt_of_le ha with rfl | ha
    · simp
    · exact div_nonpos_of_nonneg_of_nonpos (by by_contra hb; exact absurd (mul_pos_of_neg_of_neg ha (not_le.1 hb)) (not_lt.2 h)) ha.le

theorem std_neg (a b : ℚ) : vanLeerStd (-a) (-b) = -vanLeerStd a b := by
  unfold vanLeerStd
  dsimp only
  rw [neg_mul_neg]
  split
  · rw [show -a + -b = -(a + b) by ring, div_neg]
  · simp

theorem slope_neg (mode : SlopeMode) (a b : ℚ) : slopeFn mode (-a) (-b) = -slopeFn mode a b := by
  rcases mode_cases mode with rfl | rfl | h
  · simp [slopeFn]
  · exact minmod_neg a b
  · rw [slopeFn_vanLeer h, slopeFn_vanLeer h, std_neg]

/-- C61 (limiters). With every limiter the slope is zero at an extremum, does not depend on the order of its arguments, changes sign with them, is between zero and
twice the smaller one (at most the smaller one with minmod, and none without slopes), and equals them where they are equal; the three forms of van Leer agree. -/
theorem C61_limiter (mode : SlopeMode) (sL sR : ℚ) :
    (sL * sR ≤ 0 → slopeFn mode sL sR = 0) ∧ slopeFn mode sL sR = slopeFn mode sR sL ∧ slopeFn mode (-sL) (-sR) = -slopeFn mode sL sR ∧
    (0 < sL → 0 < sR → 0 ≤ slopeFn mode sL sR ∧ slopeFn mode sL sR ≤ (if mode = .minmod then 1 else if mode = .none then 0 else 2) * min sL sR) ∧
    (mode ≠ .none → slopeFn mode sL sL = sL) ∧
    (∀ mode', mode' ≠ .none → mode' ≠ .minmod → mode ≠ .none → mode ≠ .minmod → slopeFn mode sL sR = slopeFn mode' sL sR) := by
  refine ⟨?_, ?_, slope_neg mode sL sR, ?_, ?_, ?_⟩
  · intro h
    rcases mode_cases mode with rfl | rfl | hm
    · rfl
    · exact minmod_zero h
    · rw [slopeFn_vanLeer hm]
      unfold vanLeerStd
      dsimp only
      rw [if_neg (not_lt.2 h)]
  · rcases mode_cases mode with rfl | rfl | hm
    · rfl
    · show minmod sL sR = minmod sR sL
      rcases le_or_gt (sL * sR) 0 with h | h
      · rw [minmod_zero h, minmod_zero (by rw [mul_comm]; exact h)]
      · rcases lt_or_gt_of_ne (show sL ≠ 0 from fun e => by simp [e] at h) with ha | ha
        · have hb : sR < 0 := by by_contra hb; exact absurd (mul_nonpos_of_nonpos_of_nonneg ha.le (not_lt.1 hb)) (not_le.2 h)
          rw [← neg_neg sL, ← neg_neg sR, minmod_neg, minmod_neg (-sR), minmod_pos (by linarith) (by linarith), minmod_pos (by linarith) (by linarith), min_comm]
        · have hb : 0 < sR := (pos_iff_pos_of_mul_pos h).1 ha
          rw [minmod_pos ha hb, minmod_pos hb ha, min_comm]
    · rw [slopeFn_vanLeer hm, slopeFn_vanLeer hm]
      unfold vanLeerStd
      rw [mul_comm, add_comm]
  · intro ha hb
    rcases mode_cases mode with rfl | rfl | hm
    · simp [slopeFn]
    · rw [show slopeFn .minmod sL sR = minmod sL sR from rfl, minmod_pos ha hb]
      simp only [↓reduceIte, one_mul, le_refl, and_true]
      exact le_min ha.le hb.le
    · have h1 : mode ≠ .minmod ∧ mode ≠ .none := by rcases hm with rfl | rfl | rfl <;> decide
      rw [slopeFn_vanLeer hm, if_neg h1.1, if_neg h1.2]
      unfold vanLeerStd
      dsimp only
      rw [if_pos (mul_pos ha hb)]
      refine ⟨by positivity, ?_⟩
      rw [div_le_iff₀ (by linarith)]
      rcases le_total sL sR with h | h
      · rw [min_eq_left h]; nlinarith
      · rw [min_eq_right h]; nlinarith
  · intro hn
    rcases mode_cases mode with rfl | rfl | hm
    · exact absurd rfl hn
    · show minmod sL sL = sL
      unfold minmod
      dsimp only
      by_cases h : sL = 0
      · simp [h]
      · rw [div_self h]; simp
    · rw [slopeFn_vanLeer hm]
      unfold vanLeerStd
      dsimp only
      by_cases h : sL = 0
      · simp [h]
      · have : 0 < sL * sL := mul_self_pos.2 h
        rw [if_pos this]
        field_simp
        ring
  · intro mode' h1 h2 h3 h4
    have : ∀ m : SlopeMode, m ≠ .none → m ≠ .minmod → (m = .vanLeerF ∨ m = .vanLeerStd ∨ m = .vanLeerSym) := by
      intro m; cases m <;> simp
    rw [slopeFn_vanLeer (this _ h3 h4), slopeFn_vanLeer (this _ h1 h2)]

example : slopeFn .vanLeerF 1 3 = 3 / 2 ∧ slopeFn .vanLeerSym 1 3 = 3 / 2 ∧ slopeFn .minmod 1 3 = 1 ∧ slopeFn .minmod (-2) 3 = 0 := by decide +kernel

/-! ### The slopes of a patch -/

/-- C61 (slopes). For every mesh, with the cell graphs that the solver builds, every limiter and fields: the kernels run within bounds and give each cell its primitive
variables and, for each of them, the limited means of the difference quotients with the cells that touch it. -/
theorem C61_slopes {env : BVHEnv Int} {bs : List Box} {lo hi : V3 Int} (H : MeshIn env bs lo hi) {level : Nat} {g : Nat → NGraph} (hg : Built env bs level g)
    (A : Ar) (gamma dx : ℚ) (mode : SlopeMode) (cons : List CState) (hl : cons.length = bs.length * 8) :
    fvCells A gamma dx mode bs g cons = some ((List.range (bs.length * 8)).map (cellSpec A gamma dx mode bs cons)) := by
  obtain ⟨C, h1, h2⟩ := built_rows H hg
  exact fvCells_ok A gamma dx mode H.cube g C h1 h2 cons hl

/-- C61 (the step of a patch). The content of each of the first `n` cells changes by minus `dt` times the outflow through its faces, with the states at the faces
reconstructed from the slopes. -/
theorem C61_update {env : BVHEnv Int} {bs : List Box} {lo hi : V3 Int} (H : MeshIn env bs lo hi) {level : Nat} {g : Nat → NGraph} (hg : Built env bs level g)
    (A : Ar) (F : Nat → PState → PState → CState) (gamma dtI dt : ℚ) {dx : ℚ} (hdx : 0 < dx) (mode : SlopeMode) (cons : List CState) (hl : cons.length = bs.length * 8)
    (n : Nat) (hn : n ≤ bs.length * 8) (junk : Nat → PState × PState) (sched : Nat → List Nat) :
    ∃ new, patchStep A F gamma dtI dt dx mode junk sched bs g cons n = some new ∧ new.length = n ∧ ∀ c < n, ∀ i,
      volume dx (cellD bs c) * ((new.getD c state0).q i - (cons.getD c state0).q i) =
        -dt * ∑ dir ∈ Finset.range 6, ∑ d ∈ touching bs dir c, outflow F gamma dtI dx bs ((List.range (bs.length * 8)).map (cellSpec A gamma dx mode bs cons)) i dir c d := by
  have hu := C61_slopes H hg A gamma dx mode cons hl
  obtain ⟨rates, h1, h2, h3⟩ := C59_rates H hg F gamma dtI hdx (u := (List.range (bs.length * 8)).map (cellSpec A gamma dx mode bs cons)) (by simp) n hn junk sched
  refine ⟨euler dt (cons.take n) rates, ?_, ?_, ?_⟩
  · unfold patchStep
    rw [hu, Option.bind_eq_bind, Option.bind_some, h1]; rfl
  · unfold euler
    simp
    omega
  · intro c hc i
    have ht : (cons.take n).getD c state0 = cons.getD c state0 := by
      rw [List.getD_eq_getElem?_getD, List.getElem?_take_of_lt hc, List.getD_eq_getElem?_getD]
    rw [euler_q dt (cons.take n) rates (by simp; omega), ht, add_sub_cancel_left, mul_left_comm, h3 c hc i]
    unfold touching
    simp only [Finset.sum_filter]
    ring

/-- Centre of a box along axis `j`. -/
def mid (dx : ℚ) (B : Box) (j : Nat) : ℚ :=
  match j with
  | 0 => (B.lo.x + B.hi.x : Int) * dx / 2
  | 1 => (B.lo.y + B.hi.y : Int) * dx / 2
  | _ => (B.lo.z + B.hi.z : Int) * dx / 2

/-- C61 (distance). Between cubic cells that touch and have the same size, or of which one is twice as wide, the distance used is that of the centres along the
axis. -/
theorem C61_gap {dx : ℚ} (hdx : 0 < dx) {A B : Box} {a b : Int} (ha : 0 < a) (hb : 0 < b) (hA : A.hi.x = A.lo.x + a ∧ A.hi.y = A.lo.y + a ∧ A.hi.z = A.lo.z + a)
    (hB : B.hi.x = B.lo.x + b ∧ B.hi.y = B.lo.y + b ∧ B.hi.z = B.lo.z + b) (hab : a = b ∨ a = 2 * b ∨ b = 2 * a) {dir : Nat} (hd : dir < 6) (hf : Faces dir A B) :
    gap (width dx A) (width dx B) = (if dir % 2 = 0 then mid dx B (dir / 2) - mid dx A (dir / 2) else mid dx A (dir / 2) - mid dx B (dir / 2)) := by
  obtain ⟨a1, a2, a3⟩ := hA
  obtain ⟨b1, b2, b3⟩ := hB
  have e1 : width dx A = a * dx := by unfold width; rw [a1]; congr 2; omega
  have e2 : width dx B = b * dx := by unfold width; rw [b1]; congr 2; omega
  have key : gap (width dx A) (width dx B) = (a + b) * dx / 2 := by
    rw [e1, e2]
    unfold gap
    have ha' : (0 : ℚ) < a := by exact_mod_cast ha
    have hb' : (0 : ℚ) < b := by exact_mod_cast hb
    rcases hab with rfl | rfl | rfl
    · simp only [lt_self_iff_false, ↓reduceIte]; ring
    · push_cast
      rw [if_neg (by nlinarith), if_pos (by nlinarith)]; ring
    · push_cast
      rw [if_pos (by nlinarith)]; ring
  rw [key]
  interval_cases dir <;> simp only [Faces] at hf <;> simp only [mid, a1, a2, a3, b1, b2, b3, Nat.reduceMod, Nat.reduceDiv, Nat.reduceEqDiff, ↓reduceIte, OfNat.ofNat_ne_zero, one_ne_zero]
  all_goals
    have h := hf.1
    first
      | (rw [a1] at h; rw [← h]; push_cast; ring)
      | (rw [a2] at h; rw [← h]; push_cast; ring)
      | (rw [a3] at h; rw [← h]; push_cast; ring)
      | (rw [b1] at h; rw [h]; push_cast; ring)
      | (rw [b2] at h; rw [h]; push_cast; ring)
      | (rw [b3] at h; rw [h]; push_cast; ring)

theorem cell_cube {bs : List Box} (hc : ∀ b ∈ bs, Cube2 b) (c : Nat) (h : c < bs.length * 8) :
    ∃ a : Int, 0 < a ∧ (cellD bs c).hi.x = (cellD bs c).lo.x + a ∧ (cellD bs c).hi.y = (cellD bs c).lo.y + a ∧ (cellD bs c).hi.z = (cellD bs c).lo.z + a := by
  have ha : c / 8 < bs.length := by omega
  have hA : bs[c / 8]? = some bs[c / 8] := List.getElem?_eq_getElem ha
  generalize bs[c / 8] = A at hA
  obtain ⟨k, h0, h1, h2, h3⟩ := hc A (List.mem_of_getElem? hA)
  unfold cellD
  rw [List.getD_eq_getElem?_getD, cells_get, hA, Option.map_some, Option.getD_some, cellOf_cube h0 h1 h2 h3]
  exact ⟨k, h0, rfl, rfl, rfl⟩

/-- Component of a vector. -/
def comp (v : V3 ℚ) : Nat → ℚ
  | 0 => v.x
  | 1 => v.y
  | _ => v.z

/-- One cell is as wide as the other, or twice as wide. -/
def Near (A B : Box) : Prop :=
  A.hi.x - A.lo.x = B.hi.x - B.lo.x ∨ A.hi.x - A.lo.x = 2 * (B.hi.x - B.lo.x) ∨ B.hi.x - B.lo.x = 2 * (A.hi.x - A.lo.x)

theorem mean_linear {dx : ℚ} (hdx : 0 < dx) {bs : List Box} (hc : ∀ b ∈ bs, Cube2 b) {c : Nat} (hcl : c < bs.length * 8) {dir : Nat} (hd : dir < 6) (α β : ℚ) (f : Nat → ℚ)
    (hf : ∀ d, f d = α + β * mid dx (cellD bs d) (dir / 2)) (hne : (touching bs dir c).Nonempty) (hr : ∀ d ∈ touching bs dir c, Near (cellD bs c) (cellD bs d)) :
    meanSlope dx bs f dir c = β := by
  have key : ∀ d ∈ touching bs dir c, (if dir % 2 = 0 then f d - f c else f c - f d) / gap (width dx (cellD bs c)) (width dx (cellD bs d)) = β := by
    intro d hdt
    obtain ⟨h1, h2⟩ := Finset.mem_filter.1 hdt
    have h1 := Finset.mem_range.1 h1
    obtain ⟨a, a0, a1⟩ := cell_cube hc c hcl
    obtain ⟨b, b0, b1⟩ := cell_cube hc d h1
    have hn := hr d hdt
    unfold Near at hn
    have hg := C61_gap hdx a0 b0 a1 b1 (by omega) hd h2
    have hg0 : 0 < gap (width dx (cellD bs c)) (width dx (cellD bs d)) := by
      have := width_pos hdx hc c hcl
      unfold gap
      split
      · linarith
      · split <;> linarith
    rw [div_eq_iff (ne_of_gt hg0), hg, hf, hf]
    split <;> ring
  unfold meanSlope
  rw [Finset.sum_congr rfl key, Finset.sum_const, nsmul_eq_mul]
  have : ((touching bs dir c).card : ℚ) ≠ 0 := by
    exact_mod_cast (Finset.card_pos.2 hne).ne'
  field_simp

/-- C61 (linear fields). Where a cell has neighbours on both sides along axis `j`, each of the same size, half or double: the slope along `j` of a field linear
in the coordinate along `j` is exact, with every limiter. -/
theorem C61_linear {dx : ℚ} (hdx : 0 < dx) {bs : List Box} (hc : ∀ b ∈ bs, Cube2 b) {c : Nat} (hcl : c < bs.length * 8) {j : Nat} (hj : j < 3) (α β : ℚ) (f : Nat → ℚ)
    (hf : ∀ d, f d = α + β * mid dx (cellD bs d) j)
    (hn : ∀ dir < 6, dir / 2 = j → (touching bs dir c).Nonempty ∧ ∀ d ∈ touching bs dir c, Near (cellD bs c) (cellD bs d)) {mode : SlopeMode} (hm : mode ≠ .none) :
    comp (slopes mode dx bs f c) j = β := by
  have key : ∀ dir < 6, dir / 2 = j → meanSlope dx bs f dir c = β := by
    intro dir hd e
    exact mean_linear hdx hc hcl hd α β f (by rw [e]; exact hf) (hn dir hd e).1 (hn dir hd e).2
  have hs := (C61_limiter mode β β).2.2.2.2.1 hm
  interval_cases j
  · simp only [comp, slopes, key 0 (by omega) rfl, key 1 (by omega) rfl, hs]
  · simp only [comp, slopes, key 2 (by omega) rfl, key 3 (by omega) rfl, hs]
  · simp only [comp, slopes, key 4 (by omega) rfl, key 5 (by omega) rfl, hs]

/-- The face of `A` in direction `dir` is a part of that of `B`. -/
def Covered (dir : Nat) (A B : Box) : Prop :=
  (dir / 2 ≠ 0 → B.lo.x ≤ A.lo.x ∧ A.hi.x ≤ B.hi.x) ∧ (dir / 2 ≠ 1 → B.lo.y ≤ A.lo.y ∧ A.hi.y ≤ B.hi.y) ∧ (dir / 2 ≠ 2 → B.lo.z ≤ A.lo.z ∧ A.hi.z ≤ B.hi.z)

instance (dir : Nat) (A B : Box) : Decidable (Covered dir A B) := by unfold Covered; infer_instance

theorem touching_single {bs : List Box} (hs : Separate bs) (hc : ∀ b ∈ bs, Cube2 b) {c d dir : Nat} (hcl : c < bs.length * 8) (hdl : d < bs.length * 8) (hd : dir < 6)
    (hf : Faces dir (cellD bs c) (cellD bs d)) (hv : Covered dir (cellD bs c) (cellD bs d)) : touching bs dir c = {d} := by
  have hsep := cells_separate (fun b hb => cube_wide (hc b hb)) hs
  ext d'
  simp only [touching, Finset.mem_filter, Finset.mem_range, Finset.mem_singleton]
  constructor
  · rintro ⟨h1, h2⟩
    by_contra hne
    have ap := hsep d' d _ _ hne (cellD_get h1) (cellD_get hdl)
    rw [apart_iff] at ap
    obtain ⟨a, a0, a1, a2, a3⟩ := cell_cube hc c hcl
    obtain ⟨b, b0, b1, b2, b3⟩ := cell_cube hc d hdl
    obtain ⟨e, e0, e1, e2, e3⟩ := cell_cube hc d' h1
    have : volMeet (cellD bs d') (cellD bs d) = true := by
      rw [volMeet_overlap]
      unfold Covered at hv
      interval_cases dir <;> simp only [Faces, Overlap] at hf h2 ⊢ <;> simp at hv <;> omega
    rw [ap] at this
    cases this
  · rintro rfl
    exact ⟨hdl, hf⟩

theorem slope_frac (mode : SlopeMode) (a b : ℚ) : ∃ t, 0 ≤ t ∧ t ≤ 1 ∧ slopeFn mode a b = t * (2 * b) := by
  have pos : ∀ a b : ℚ, 0 < a → 0 < b → ∃ t, 0 ≤ t ∧ t ≤ 1 ∧ slopeFn mode a b = t * (2 * b) := by
    intro a b ha hb
    obtain ⟨h1, h2⟩ := (C61_limiter mode a b).2.2.2.1 ha hb
    refine ⟨slopeFn mode a b / (2 * b), by positivity, ?_, by field_simp⟩
    rw [div_le_one (by positivity)]
    have hm : min a b ≤ b := min_le_right _ _
    have h0 : 0 < min a b := lt_min ha hb
    refine h2.trans ?_
    split
    · linarith
    · split <;> linarith
  rcases le_or_gt (a * b) 0 with h | h
  · exact ⟨0, le_refl _, by norm_num, by rw [(C61_limiter mode a b).1 h]; ring⟩
  · rcases lt_or_gt_of_ne (show a ≠ 0 from fun e => by simp [e] at h) with ha | ha
    · have hb : b < 0 := by by_contra hb; exact absurd (mul_nonpos_of_nonpos_of_nonneg ha.le (not_lt.1 hb)) (not_le.2 h)
      obtain ⟨t, h1, h2, h3⟩ := pos (-a) (-b) (by linarith) (by linarith)
      rw [slope_neg] at h3
      exact ⟨t, h1, h2, by linarith⟩
    · exact pos a b ha ((pos_iff_pos_of_mul_pos h).1 ha)

theorem slope_frac' (mode : SlopeMode) (a b : ℚ) : ∃ t, 0 ≤ t ∧ t ≤ 1 ∧ slopeFn mode a b = t * (2 * a) := by
  rw [(C61_limiter mode a b).2.1]; exact slope_frac mode b a

theorem shift_covered {dx : ℚ} (hdx : 0 < dx) {A B : Box} {a b : Int} (ha : 0 < a) (hb : 0 < b) (hA : A.hi.x = A.lo.x + a ∧ A.hi.y = A.lo.y + a ∧ A.hi.z = A.lo.z + a)
    (hB : B.hi.x = B.lo.x + b ∧ B.hi.y = B.lo.y + b ∧ B.hi.z = B.lo.z + b) {dir : Nat} (hd : dir < 6) (hf : Faces dir A B) (hv : Covered dir A B) :
    shiftTo (meet (scale dx A) (scale dx B)) (scale dx A) =
      ⟨if dir = 0 then width dx A / 2 else if dir = 1 then -(width dx A / 2) else 0, if dir = 2 then width dx A / 2 else if dir = 3 then -(width dx A / 2) else 0,
        if dir = 4 then width dx A / 2 else if dir = 5 then -(width dx A / 2) else 0⟩ := by
  obtain ⟨a1, a2, a3⟩ := hA
  obtain ⟨b1, b2, b3⟩ := hB
  have e1 : width dx A = a * dx := by unfold width; rw [a1]; congr 2; omega
  have mx : ∀ x y : Int, max ((x : ℚ) * dx) (y * dx) = ((max x y : Int) : ℚ) * dx := by
    intro x y
    rw [← max_mul_of_nonneg _ _ hdx.le]
    push_cast; rfl
  have mn : ∀ x y : Int, min ((x : ℚ) * dx) (y * dx) = ((min x y : Int) : ℚ) * dx := by
    intro x y
    rw [← min_mul_of_nonneg _ _ hdx.le]
    push_cast; rfl
  have sm : ∀ x y : Int, ((x : ℚ) * dx + y * dx) / 2 = ((x + y : Int) : ℚ) * dx / 2 := by
    intro x y; push_cast; ring
  have tr : ∀ {l h l' h' : Int}, l' ≤ l ∧ h ≤ h' → max l l' + min h h' = l + h := by intro l h l' h' _; omega
  have up : ∀ {l h l' h' : Int}, l < h → l' < h' → h = l' → max l l' + min h h' = 2 * h := by intro l h l' h' _ _ _; omega
  have dn : ∀ {l h l' h' : Int}, l < h → l' < h' → l = h' → max l l' + min h h' = 2 * l := by intro l h l' h' _ _ _; omega
  have ax : A.lo.x < A.hi.x ∧ A.lo.y < A.hi.y ∧ A.lo.z < A.hi.z := by omega
  have bx : B.lo.x < B.hi.x ∧ B.lo.y < B.hi.y ∧ B.lo.z < B.hi.z := by omega
  unfold shiftTo meet scale center
  simp only [mx, mn, e1, sm, V3.mk.injEq]
  unfold Covered at hv
  interval_cases dir <;> simp only [Faces] at hf <;> simp at hv
  · rw [up ax.1 bx.1 hf.1, tr hv.1, tr hv.2, a1, a2, a3]
    refine ⟨?_, ?_, ?_⟩ <;> push_cast <;> norm_num <;> ring
  · rw [dn ax.1 bx.1 hf.1, tr hv.1, tr hv.2, a1, a2, a3]
    refine ⟨?_, ?_, ?_⟩ <;> push_cast <;> norm_num <;> ring
  · rw [up ax.2.1 bx.2.1 hf.1, tr hv.1, tr hv.2, a1, a2, a3]
    refine ⟨?_, ?_, ?_⟩ <;> push_cast <;> norm_num <;> ring
  · rw [dn ax.2.1 bx.2.1 hf.1, tr hv.1, tr hv.2, a1, a2, a3]
    refine ⟨?_, ?_, ?_⟩ <;> push_cast <;> norm_num <;> ring
  · rw [up ax.2.2 bx.2.2 hf.1, tr hv.1, tr hv.2, a1, a2, a3]
    refine ⟨?_, ?_, ?_⟩ <;> push_cast <;> norm_num <;> ring
  · rw [dn ax.2.2 bx.2.2 hf.1, tr hv.1, tr hv.2, a1, a2, a3]
    refine ⟨?_, ?_, ?_⟩ <;> push_cast <;> norm_num <;> ring

/-- `v` is between `a` and `b`. -/
def Between (a b v : ℚ) : Prop := min a b ≤ v ∧ v ≤ max a b

theorem between_of {a b v t : ℚ} (h0 : 0 ≤ t) (h1 : t ≤ 1) (hv : v = a + t * (b - a)) : Between a b v := by
  subst hv
  unfold Between
  rcases le_total a b with h | h
  · rw [min_eq_left h, max_eq_right h]
    constructor <;> nlinarith
  · rw [min_eq_right h, max_eq_left h]
    constructor <;> nlinarith

theorem face_value {dx : ℚ} (hdx : 0 < dx) {bs : List Box} (hs : Separate bs) (hc : ∀ b ∈ bs, Cube2 b) (mode : SlopeMode) (f : Nat → ℚ) {c d dir : Nat} (hcl : c < bs.length * 8)
    (hdl : d < bs.length * 8) (hd : dir < 6) (hf : Faces dir (cellD bs c) (cellD bs d)) (hv : Covered dir (cellD bs c) (cellD bs d)) :
    Between (f c) (f d) (f c + dot (slopes mode dx bs f c) (shiftTo (meet (scale dx (cellD bs c)) (scale dx (cellD bs d))) (scale dx (cellD bs c)))) := by
  obtain ⟨a, a0, a1⟩ := cell_cube hc c hcl
  obtain ⟨b, b0, b1⟩ := cell_cube hc d hdl
  have hw := width_pos hdx hc c hcl
  rw [shift_covered hdx a0 b0 a1 b1 hd hf hv]
  have hab : a ≤ b := by
    unfold Covered at hv
    interval_cases dir <;> simp at hv <;> omega
  have hgap : width dx (cellD bs c) ≤ gap (width dx (cellD bs c)) (width dx (cellD bs d)) := by
    have e : width dx (cellD bs c) ≤ width dx (cellD bs d) := by
      unfold width
      apply mul_le_mul_of_nonneg_right _ hdx.le
      have : (cellD bs c).hi.x - (cellD bs c).lo.x ≤ (cellD bs d).hi.x - (cellD bs d).lo.x := by omega
      exact_mod_cast this
    unfold gap
    split
    · linarith
    · rw [if_neg (not_lt.2 e)]
  have hm : meanSlope dx bs f dir c = (if dir % 2 = 0 then f d - f c else f c - f d) / gap (width dx (cellD bs c)) (width dx (cellD bs d)) := by
    unfold meanSlope
    rw [touching_single hs hc hcl hdl hd hf hv]
    simp
  generalize gap (width dx (cellD bs c)) (width dx (cellD bs d)) = G at *
  generalize width dx (cellD bs c) = w at *
  have fin : ∀ t, 0 ≤ t → t ≤ 1 → Between (f c) (f d) (f c + t * (2 * ((f d - f c) / G)) * (w / 2)) := by
    intro t h0 h1
    have hG : 0 < G := lt_of_lt_of_le hw hgap
    refine between_of (t := t * (w / G)) (by positivity) ?_ (by ring)
    have : w / G ≤ 1 := (div_le_one hG).2 hgap
    have h2 : 0 ≤ w / G := by positivity
    nlinarith
  unfold dot slopes
  interval_cases dir <;> simp only [Nat.reduceMod, ↓reduceIte, Nat.reduceEqDiff, mul_zero, add_zero, zero_add, one_ne_zero, OfNat.ofNat_ne_zero, OfNat.one_ne_ofNat] at hm ⊢
  · obtain ⟨t, h0, h1, h2⟩ := slope_frac mode (meanSlope dx bs f 1 c) (meanSlope dx bs f 0 c)
    rw [h2, hm]; exact fin t h0 h1
  · obtain ⟨t, h0, h1, h2⟩ := slope_frac' mode (meanSlope dx bs f 1 c) (meanSlope dx bs f 0 c)
    rw [h2, hm]
    have := fin t h0 h1
    rwa [show t * (2 * ((f d - f c) / G)) * (w / 2) = t * (2 * ((f c - f d) / G)) * -(w / 2) by ring] at this
  · obtain ⟨t, h0, h1, h2⟩ := slope_frac mode (meanSlope dx bs f 3 c) (meanSlope dx bs f 2 c)
    rw [h2, hm]; exact fin t h0 h1
  · obtain ⟨t, h0, h1, h2⟩ := slope_frac' mode (meanSlope dx bs f 3 c) (meanSlope dx bs f 2 c)
    rw [h2, hm]
    have := fin t h0 h1
    rwa [show t * (2 * ((f d - f c) / G)) * (w / 2) = t * (2 * ((f c - f d) / G)) * -(w / 2) by ring] at this
  · obtain ⟨t, h0, h1, h2⟩ := slope_frac mode (meanSlope dx bs f 5 c) (meanSlope dx bs f 4 c)
    rw [h2, hm]; exact fin t h0 h1
  · obtain ⟨t, h0, h1, h2⟩ := slope_frac' mode (meanSlope dx bs f 5 c) (meanSlope dx bs f 4 c)
    rw [h2, hm]
    have := fin t h0 h1
    rwa [show t * (2 * ((f d - f c) / G)) * (w / 2) = t * (2 * ((f c - f d) / G)) * -(w / 2) by ring] at this

/-- C61 (no overshoot). At a face with a cell that is at least as large, whatever the limiter, the values reconstructed on the side of `c`, before the half time
step, are between those of the two cells: density, pressure and the three velocities. -/
theorem C61_bounded {env : BVHEnv Int} {bs : List Box} {lo hi : V3 Int} (H : MeshIn env bs lo hi) (A : Ar) (gamma : ℚ) {dx : ℚ} (hdx : 0 < dx) (mode : SlopeMode) (cons : List CState)
    {u : List CellIn} (hu : u = (List.range (bs.length * 8)).map (cellSpec A gamma dx mode bs cons)) {c d dir : Nat} (hcl : c < bs.length * 8) (hdl : d < bs.length * 8) (hd : dir < 6)
    (hf : Faces dir (cellD bs c) (cellD bs d)) (hv : Covered dir (cellD bs c) (cellD bs d)) :
    let p := A.consToPrim gamma (cons.getD c state0)
    let q := A.consToPrim gamma (cons.getD d state0)
    let s := (faceStates gamma 0 dx bs u c d).1
    Between p.rho q.rho s.rho ∧ Between p.press q.press s.press ∧ Between p.vel.x q.vel.x s.vel.x ∧ Between p.vel.y q.vel.y s.vel.y ∧ Between p.vel.z q.vel.z s.vel.z := by
  intro p q s
  have hget : u.getD c cell0 = cellSpec A gamma dx mode bs cons c := by
    rw [hu, List.getD_eq_getElem?_getD, List.getElem?_map, List.getElem?_range hcl]; rfl
  have fv := fun (f : Nat → ℚ) => face_value hdx H.sep H.cube mode f hcl hdl hd hf hv
  have hs : s = faceState gamma 0 (cellSpec A gamma dx mode bs cons c) (shiftTo (meet (scale dx (cellD bs c)) (scale dx (cellD bs d))) (scale dx (cellD bs c))) := by
    show (faceStates gamma 0 dx bs u c d).1 = _
    unfold faceStates
    dsimp only
    rw [hget]
  have r1 := fv (fun d => (A.consToPrim gamma (cons.getD d state0)).rho)
  have r2 := fv (fun d => (A.consToPrim gamma (cons.getD d state0)).press)
  have r3 := fv (fun d => (A.consToPrim gamma (cons.getD d state0)).vel.x)
  have r4 := fv (fun d => (A.consToPrim gamma (cons.getD d state0)).vel.y)
  have r5 := fv (fun d => (A.consToPrim gamma (cons.getD d state0)).vel.z)
  rw [hs]
  generalize shiftTo (meet (scale dx (cellD bs c)) (scale dx (cellD bs d))) (scale dx (cellD bs c)) = sh at *
  unfold faceState cellSpec
  dsimp only [dot] at r1 r2 r3 r4 r5 ⊢
  simp only [mul_zero, add_zero]
  refine ⟨r1, r2, ?_, ?_, ?_⟩
  · simpa only [mul_comm] using r3
  · simpa only [mul_comm] using r4
  · simpa only [mul_comm] using r5

/-! ### Examples on the mesh of C58: a block beside eight blocks of half its width -/

/-- Gas at rest; the density falls along x: 11, 1 in the two layers of cells of the first block, 1/10 in the others. -/
def vcCons : List CState := (List.range 72).map fun (c : Nat) => ⟨if 8 ≤ c then 1 / 10 else if c % 2 = 0 then 11 else 1, 1, ⟨0, 0, 0⟩⟩

example (g : Nat → NGraph) (hg : Built gxEnv gxBs 2 g) : fvCells (exact fsq) (5 / 3) (1 / 4) .minmod gxBs g vcCons =
    some ((List.range (gxBs.length * 8)).map (cellSpec (exact fsq) (5 / 3) (1 / 4) .minmod gxBs vcCons)) :=
  C61_slopes gx_mesh hg _ _ _ _ _ (by decide)

example (g : Nat → NGraph) (hg : Built gxEnv gxBs 2 g) :=
  C61_update gx_mesh hg (exact fsq) ((exact fsq).flux (5 / 3) .hll) (5 / 3) (1 / 40) (1 / 20) (by norm_num : (0 : ℚ) < 1 / 4) .minmod vcCons (by decide) 8 (by decide)

/-- C61 (limitation). At the face with smaller cells the bound fails with van Leer: all the densities are positive, and the density reconstructed at the face is
negative. -/
theorem C61_overshoot_defect : (∀ c < 72, 0 < (vcCons.getD c state0).rho) ∧ ∃ g u, Built gxEnv gxBs 2 g ∧ fvCells (exact fsq) (5 / 3) 1 .vanLeerSym gxBs g vcCons = some u ∧
    Faces 0 (cellD gxBs 1) (cellD gxBs 8) ∧ Near (cellD gxBs 1) (cellD gxBs 8) ∧ (faceStates (5 / 3) 0 1 gxBs u 1 8).1.rho < 0 := by
  refine ⟨by decide +kernel, ?_⟩
  obtain ⟨g, hg⟩ := C59_built gx_mesh 2
  refine ⟨g, _, hg, C61_slopes gx_mesh hg _ _ _ _ _ (by decide), by decide +kernel, by unfold Near; decide +kernel, by decide +kernel⟩

/-- On the other side of this face the bound holds. -/
example : Between (1 / 10) 1 (faceStates (5 / 3) 0 1 gxBs ((List.range (gxBs.length * 8)).map (cellSpec (exact fsq) (5 / 3) 1 .vanLeerSym gxBs vcCons)) 8 1).1.rho :=
  (C61_bounded gx_mesh (exact fsq) (5 / 3) (by norm_num) .vanLeerSym vcCons rfl (c := 8) (d := 1) (dir := 1) (by decide) (by decide) (by decide) (by decide +kernel) (by decide +kernel)).1

/-- A cell between a cell of its size and four smaller ones. -/
example : comp (slopes .vanLeerF (1 / 4) gxBs (fun d => 3 + 5 * mid (1 / 4) (cellD gxBs d) 0) 1) 0 = 5 :=
  C61_linear (by norm_num) gx_mesh.cube (by decide) (by decide) 3 5 _ (fun _ => rfl)
    (by
      intro dir hd e
      have : (touching gxBs dir 1).Nonempty ∧ ∀ d ∈ touching gxBs dir 1, (cellD gxBs 1).hi.x - (cellD gxBs 1).lo.x = (cellD gxBs d).hi.x - (cellD gxBs d).lo.x ∨
          (cellD gxBs 1).hi.x - (cellD gxBs 1).lo.x = 2 * ((cellD gxBs d).hi.x - (cellD gxBs d).lo.x) := by
        obtain rfl | rfl : dir = 0 ∨ dir = 1 := by omega
        · decide +kernel
        · decide +kernel
      exact ⟨this.1, fun d hd => (this.2 d hd).elim Or.inl fun h => Or.inr (Or.inl h)⟩) (by decide)

end Shamrock.Fv
