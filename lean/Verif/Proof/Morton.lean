import Verif.Model.Morton
import Mathlib.Tactic.Ring
/-! Bit-linear functions: a function that commutes with `|||` is determined by its values on single bits. -/
namespace Shamrock

/-- `f` commutes with bitwise or. -/
structure OrLin {w v : Nat} (f : BitVec w → BitVec v) : Prop where
  zero : f 0#w = 0#v
  or : ∀ x y, f (x ||| y) = f x ||| f y

theorem OrLin.id {w : Nat} : OrLin (fun x : BitVec w => x) := ⟨rfl, fun _ _ => rfl⟩

theorem OrLin.and {w v : Nat} {f : BitVec w → BitVec v} (h : OrLin f) (m : BitVec v) : OrLin (fun x => f x &&& m) := by
  refine ⟨by simp [h.zero], ?_⟩
  intro x y
  ext i hi
  simp only [h.or, BitVec.getElem_and, BitVec.getElem_or, Bool.and_or_distrib_right]

theorem OrLin.spread {w v : Nat} {f : BitVec w → BitVec v} (h : OrLin f) (s : Nat) (m : BitVec v) :
    OrLin (fun x => spreadStep (f x) s m) := by
  refine ⟨by simp [spreadStep, h.zero], ?_⟩
  intro x y
  unfold spreadStep
  simp only [h.or, BitVec.shiftLeft_or_distrib]
  ext i hi
  simp only [BitVec.getElem_and, BitVec.getElem_or]
  cases (f x)[i] <;> cases (f y)[i] <;> simp [Bool.and_or_distrib_right]

theorem OrLin.pack {w v : Nat} {f : BitVec w → BitVec v} (h : OrLin f) (s : Nat) (m : BitVec v) :
    OrLin (fun x => packStep (f x) s m) := by
  refine ⟨by simp [packStep, h.zero], ?_⟩
  intro x y
  unfold packStep
  simp only [h.or, BitVec.ushiftRight_or_distrib]
  ext i hi
  simp only [BitVec.getElem_and, BitVec.getElem_or]
  cases (f x)[i] <;> cases (f y)[i] <;> simp [Bool.and_or_distrib_right]

theorem OrLin.shr {w v : Nat} {f : BitVec w → BitVec v} (h : OrLin f) (s : Nat) : OrLin (fun x => f x >>> s) := by
  refine ⟨by simp [h.zero], ?_⟩
  intro x y
  rw [h.or, BitVec.ushiftRight_or_distrib]

theorem OrLin.setWidth {w v : Nat} {f : BitVec w → BitVec v} (h : OrLin f) (u : Nat) : OrLin (fun x => (f x).setWidth u) := by
  refine ⟨by simp [h.zero], ?_⟩
  intro x y
  rw [h.or, BitVec.setWidth_or]

theorem getLsbD_iff_lt {w : Nat} (x : BitVec w) (k : Nat) (h : x.getLsbD k = true) : k < w := by
  by_contra hc
  rw [BitVec.getLsbD_of_ge x k (by omega)] at h
  cases h

theorem OrLin.low {w v : Nat} {f : BitVec w → BitVec v} (h : OrLin f) (x : BitVec w) (j : Nat) : ∀ m : Nat,
    (f (x &&& BitVec.ofNat w (2 ^ m - 1))).getLsbD j = true ↔
      ∃ k < m, x.getLsbD k = true ∧ (f (BitVec.twoPow w k)).getLsbD j = true := by
  intro m
  induction m with
  | zero =>
    have : x &&& BitVec.ofNat w (2 ^ 0 - 1) = 0#w := by simp
    rw [this, h.zero]
    simp
  | succ m ih =>
    have hs : x &&& BitVec.ofNat w (2 ^ (m + 1) - 1) =
        (x &&& BitVec.ofNat w (2 ^ m - 1)) ||| (if x.getLsbD m then BitVec.twoPow w m else 0#w) := by
      apply BitVec.eq_of_getLsbD_eq
      intro i hi
      simp only [BitVec.getLsbD_and, BitVec.getLsbD_or, BitVec.getLsbD_ofNat, Nat.testBit_two_pow_sub_one]
      by_cases hx : x.getLsbD m = true
      · rw [if_pos hx, BitVec.getLsbD_twoPow]
        by_cases him : i = m
        · subst him; simp [hx, hi]
        · have : (i < m + 1) = (i < m) := by apply propext; omega
          simp only [this]
          have hmi : decide (m = i) = false := by simp; omega
          simp [hmi]
      · rw [if_neg hx]
        by_cases him : i = m
        · subst him; simp [hx]
        · have : (i < m + 1) = (i < m) := by apply propext; omega
          simp [this]
    rw [hs, h.or, BitVec.getLsbD_or, Bool.or_eq_true, ih]
    constructor
    · rintro (⟨k, hk, h1, h2⟩ | h1)
      · exact ⟨k, by omega, h1, h2⟩
      · by_cases hx : x.getLsbD m = true
        · rw [if_pos hx] at h1; exact ⟨m, by omega, hx, h1⟩
        · rw [if_neg hx, h.zero] at h1; simp at h1
    · rintro ⟨k, hk, h1, h2⟩
      by_cases hkm : k = m
      · subst hkm; right; rw [if_pos h1]; exact h2
      · left; exact ⟨k, by omega, h1, h2⟩

/-- A bit-linear function is determined by its values on single bits. -/
theorem OrLin.bits {w v : Nat} {f : BitVec w → BitVec v} (h : OrLin f) (x : BitVec w) (j : Nat) :
    (f x).getLsbD j = true ↔ ∃ k < w, x.getLsbD k = true ∧ (f (BitVec.twoPow w k)).getLsbD j = true := by
  have hx : x &&& BitVec.ofNat w (2 ^ w - 1) = x := by
    apply BitVec.eq_of_getLsbD_eq
    intro i hi
    simp [BitVec.getLsbD_and, BitVec.getLsbD_ofNat, Nat.testBit_two_pow_sub_one, hi]
  rw [← h.low x j w, hx]

/-- If a bit-linear function sends bit `k` to bit `g k` for `k < n` and forgets the others, output bit `j` is input bit `k` with
`g k = j`. -/
theorem OrLin.bits_of_basis {w v : Nat} {f : BitVec w → BitVec v} (h : OrLin f) (P : Nat → Prop) [DecidablePred P] (g : Nat → Nat)
    (hb : ∀ k < w, f (BitVec.twoPow w k) = if P k then BitVec.twoPow v (g k) else 0#v) (x : BitVec w) (j : Nat) :
    (f x).getLsbD j = true ↔ ∃ k, P k ∧ x.getLsbD k = true ∧ g k = j ∧ j < v := by
  rw [h.bits]
  constructor
  · rintro ⟨k, hk, h1, h2⟩
    rw [hb k hk] at h2
    by_cases hP : P k
    · rw [if_pos hP, BitVec.getLsbD_twoPow] at h2
      simp only [Bool.and_eq_true, decide_eq_true_eq] at h2
      exact ⟨k, hP, h1, h2.2, by omega⟩
    · rw [if_neg hP] at h2; simp at h2
  · rintro ⟨k, hP, h1, h2, h3⟩
    have hk := getLsbD_iff_lt x k h1
    refine ⟨k, hk, h1, ?_⟩
    rw [hb k hk, if_pos hP, BitVec.getLsbD_twoPow, ← h2]
    simp; omega

/-! ### The bit functions -/

theorem expand64_2_lin : OrLin expandBits64_2 := ((((((OrLin.id.and _).spread _ _).spread _ _).spread _ _).spread _ _).spread _ _)
theorem expand32_2_lin : OrLin expandBits32_2 := (((((OrLin.id.and _).spread _ _).spread _ _).spread _ _).spread _ _)
theorem expand32_1_lin : OrLin expandBits32_1 := ((((OrLin.id.spread _ _).spread _ _).spread _ _).spread _ _)
theorem expand64_1_lin : OrLin expandBits64_1 := (((((OrLin.id.spread _ _).spread _ _).spread _ _).spread _ _).spread _ _)
theorem contract64_2_lin : OrLin contractBits64_2 := (((((OrLin.id.pack _ _).pack _ _).pack _ _).pack _ _).pack _ _)
theorem contract32_2_lin : OrLin contractBits32_2 := ((((OrLin.id.pack _ _).pack _ _).pack _ _).pack _ _)
theorem contract64_1_lin : OrLin contractBits64_1 := (((((OrLin.id.pack _ _).pack _ _).pack _ _).pack _ _).pack _ _)
theorem contract32_1_lin : OrLin contractBits32_1 := ((((OrLin.id.pack _ _).pack _ _).pack _ _).pack _ _)

theorem expand64_2_basis : ∀ k < 64, expandBits64_2 (BitVec.twoPow 64 k) = if k < 21 then BitVec.twoPow 64 (3 * k) else 0 := by
  decide +kernel
theorem expand32_2_basis : ∀ k < 32, expandBits32_2 (BitVec.twoPow 32 k) = if k < 10 then BitVec.twoPow 32 (3 * k) else 0 := by
  decide +kernel
theorem expand32_1_basis : ∀ k < 32, k < 16 → expandBits32_1 (BitVec.twoPow 32 k) = BitVec.twoPow 32 (2 * k) := by
  decide +kernel
theorem expand64_1_basis : ∀ k < 64, k < 32 → expandBits64_1 (BitVec.twoPow 64 k) = BitVec.twoPow 64 (2 * k) := by
  decide +kernel
theorem contract64_2_basis : ∀ k < 64, k % 3 = 0 → k / 3 < 21 → contractBits64_2 (BitVec.twoPow 64 k) = BitVec.twoPow 64 (k / 3) := by
  decide +kernel
theorem contract32_2_basis : ∀ k < 32, k % 3 = 0 → k / 3 < 10 → contractBits32_2 (BitVec.twoPow 32 k) = BitVec.twoPow 32 (k / 3) := by
  decide +kernel
theorem contract64_1_basis : ∀ k < 64, k % 2 = 0 → contractBits64_1 (BitVec.twoPow 64 k) = BitVec.twoPow 64 (k / 2) := by
  decide +kernel
theorem contract32_1_basis : ∀ k < 32, k % 2 = 0 → contractBits32_1 (BitVec.twoPow 32 k) = BitVec.twoPow 32 (k / 2) := by
  decide +kernel

end Shamrock
