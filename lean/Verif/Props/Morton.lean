import Verif.Proof.Morton
import Mathlib.Data.Nat.Bitwise
import Mathlib.Tactic.Ring
import Mathlib.Tactic.IntervalCases
/-! C01, C02, C04: Morton codes and the cells of their prefixes. -/
namespace Shamrock

/-- Specification: `y` is `x` (on `n` bits) with `i` zero bits inserted after each bit: bit `k` of `x` is bit `k*(i+1)` of `y`,
all other bits of `y` are 0. -/
def IsSpread (n i x y : Nat) : Prop :=
  ∀ j, y.testBit j = (decide (j % (i + 1) = 0) && decide (j / (i + 1) < n) && x.testBit (j / (i + 1)))

theorem OrLin.bits_on {w v : Nat} {f : BitVec w → BitVec v} (h : OrLin f) (D : Nat → Prop) (g : Nat → Nat)
    (hb : ∀ k < w, D k → f (BitVec.twoPow w k) = BitVec.twoPow v (g k)) (x : BitVec w)
    (hx : ∀ k, x.getLsbD k = true → D k) (j : Nat) :
    (f x).getLsbD j = true ↔ ∃ k, x.getLsbD k = true ∧ g k = j ∧ j < v := by
  rw [h.bits]
  constructor
  · rintro ⟨k, hk, h1, h2⟩
    rw [hb k hk (hx k h1), BitVec.getLsbD_twoPow] at h2
    simp only [Bool.and_eq_true, decide_eq_true_eq] at h2
    exact ⟨k, h1, h2.2, by omega⟩
  · rintro ⟨k, h1, h2, h3⟩
    have hk := getLsbD_iff_lt x k h1
    refine ⟨k, hk, h1, ?_⟩
    rw [hb k hk (hx k h1), BitVec.getLsbD_twoPow, ← h2]
    simp; omega

theorem bit_lt_of_lt {w : Nat} (x : BitVec w) (n k : Nat) (hx : x.toNat < 2 ^ n) (h : x.getLsbD k = true) : k < n := by
  by_contra hc
  rw [BitVec.getLsbD, Nat.testBit_lt_two_pow (lt_of_lt_of_le hx (Nat.pow_le_pow_right (by omega) (by omega)))] at h
  cases h

theorem bool_eq_iff {a b : Bool} (h : a = true ↔ b = true) : a = b := by cases a <;> cases b <;> simp_all

/-- C02: `expand_bits<u64,2>` keeps the low 21 bits and inserts two zeros between them. -/
theorem C02_expand_u64_2 (x : BitVec 64) : IsSpread 21 2 x.toNat (expandBits64_2 x).toNat := by
  intro j
  apply bool_eq_iff
  have := expand64_2_lin.bits_of_basis (· < 21) (3 * ·) expand64_2_basis x j
  simp only [BitVec.getLsbD] at this
  rw [this]
  simp only [Bool.and_eq_true, decide_eq_true_eq]
  constructor
  · rintro ⟨k, h1, h2, rfl, _⟩
    refine ⟨⟨by omega, by omega⟩, ?_⟩
    rw [show 3 * k / (2 + 1) = k by omega]; exact h2
  · rintro ⟨⟨h1, h2⟩, h3⟩
    exact ⟨j / 3, h2, h3, by omega, by omega⟩

/-- C02: `expand_bits<u32,2>`. -/
theorem C02_expand_u32_2 (x : BitVec 32) : IsSpread 10 2 x.toNat (expandBits32_2 x).toNat := by
  intro j
  apply bool_eq_iff
  have := expand32_2_lin.bits_of_basis (· < 10) (3 * ·) expand32_2_basis x j
  simp only [BitVec.getLsbD] at this
  rw [this]
  simp only [Bool.and_eq_true, decide_eq_true_eq]
  constructor
  · rintro ⟨k, h1, h2, rfl, _⟩
    refine ⟨⟨by omega, by omega⟩, ?_⟩
    rw [show 3 * k / (2 + 1) = k by omega]; exact h2
  · rintro ⟨⟨h1, h2⟩, h3⟩
    exact ⟨j / 3, h2, h3, by omega, by omega⟩

/-- C02: `expand_bits<u32,1>` on 16 bit inputs. -/
theorem C02_expand_u32_1 (x : BitVec 32) (hx : x.toNat < 2 ^ 16) : IsSpread 16 1 x.toNat (expandBits32_1 x).toNat := by
  intro j
  apply bool_eq_iff
  have := expand32_1_lin.bits_on (· < 16) (2 * ·) expand32_1_basis x (fun k hk => bit_lt_of_lt x 16 k hx hk) j
  simp only [BitVec.getLsbD] at this
  rw [this]
  simp only [Bool.and_eq_true, decide_eq_true_eq]
  constructor
  · rintro ⟨k, h2, rfl, _⟩
    refine ⟨⟨by omega, by omega⟩, ?_⟩
    rw [show 2 * k / (1 + 1) = k by omega]; exact h2
  · rintro ⟨⟨h1, h2⟩, h3⟩
    exact ⟨j / 2, h3, by omega, by omega⟩

/-- C02: `expand_bits<u64,1>` on 32 bit inputs. -/
theorem C02_expand_u64_1 (x : BitVec 64) (hx : x.toNat < 2 ^ 32) : IsSpread 32 1 x.toNat (expandBits64_1 x).toNat := by
  intro j
  apply bool_eq_iff
  have := expand64_1_lin.bits_on (· < 32) (2 * ·) expand64_1_basis x (fun k hk => bit_lt_of_lt x 32 k hx hk) j
  simp only [BitVec.getLsbD] at this
  rw [this]
  simp only [Bool.and_eq_true, decide_eq_true_eq]
  constructor
  · rintro ⟨k, h2, rfl, _⟩
    refine ⟨⟨by omega, by omega⟩, ?_⟩
    rw [show 2 * k / (1 + 1) = k by omega]; exact h2
  · rintro ⟨⟨h1, h2⟩, h3⟩
    exact ⟨j / 2, h3, by omega, by omega⟩

/-- C02: `expand_bits<_,0>`. -/
theorem C02_expand_0 {w : Nat} (x : BitVec w) : IsSpread w 0 x.toNat (expandBits_0 x).toNat := by
  intro j
  apply bool_eq_iff
  simp only [expandBits_0, Nat.zero_add, Nat.div_one, Nat.mod_one, decide_true, Bool.true_and, Bool.and_eq_true,
    decide_eq_true_eq]
  constructor
  · intro h; exact ⟨getLsbD_iff_lt x j h, h⟩
  · intro h; exact h.2

theorem spread_domain {n i x y : Nat} (h : IsSpread n i x y) (k : Nat) (hk : y.testBit k = true) :
    k % (i + 1) = 0 ∧ k / (i + 1) < n := by
  rw [h k] at hk
  simp only [Bool.and_eq_true, decide_eq_true_eq] at hk
  exact hk.1

/-- `contract_bits` applied to a value with bits at multiples of `i+1` only picks these bits. -/
theorem contract_of_lin {w : Nat} {f : BitVec w → BitVec w} (hl : OrLin f) (n i : Nat) (hw : n ≤ w)
    (hb : ∀ k < w, k % (i + 1) = 0 ∧ k / (i + 1) < n → f (BitVec.twoPow w k) = BitVec.twoPow w (k / (i + 1)))
    (x : Nat) (y : BitVec w) (h : IsSpread n i x y.toNat) (hx : x < 2 ^ n) : (f y).toNat = x := by
  apply Nat.eq_of_testBit_eq
  intro j
  apply bool_eq_iff
  have := hl.bits_on (fun k => k % (i + 1) = 0 ∧ k / (i + 1) < n) (· / (i + 1)) hb y (fun k hk => spread_domain h k hk) j
  simp only [BitVec.getLsbD] at this
  rw [this]
  constructor
  · rintro ⟨k, h1, h2, h3⟩
    rw [h k] at h1
    simp only [Bool.and_eq_true, decide_eq_true_eq] at h1
    rw [← h2]; exact h1.2
  · intro hj
    have hjn : j < n := by
      by_contra hc
      rw [Nat.testBit_lt_two_pow (lt_of_lt_of_le hx (Nat.pow_le_pow_right (by omega) (by omega)))] at hj
      cases hj
    refine ⟨j * (i + 1), ?_, Nat.mul_div_cancel _ (by omega), by omega⟩
    rw [h]
    simp only [Bool.and_eq_true, decide_eq_true_eq]
    rw [Nat.mul_div_cancel _ (by omega)]
    exact ⟨⟨Nat.mul_mod_left _ _, hjn⟩, hj⟩

/-- C02: `contract_bits` undoes the spreading (specification side: whenever `y` is the spread of `x`). -/
theorem C02_contract_u64_2 (x : Nat) (y : BitVec 64) (hx : x < 2 ^ 21) (h : IsSpread 21 2 x y.toNat) : (contractBits64_2 y).toNat = x :=
  contract_of_lin contract64_2_lin 21 2 (by omega) (fun k hk hd => contract64_2_basis k hk hd.1 hd.2) x y h hx
theorem C02_contract_u32_2 (x : Nat) (y : BitVec 32) (hx : x < 2 ^ 10) (h : IsSpread 10 2 x y.toNat) : (contractBits32_2 y).toNat = x :=
  contract_of_lin contract32_2_lin 10 2 (by omega) (fun k hk hd => contract32_2_basis k hk hd.1 hd.2) x y h hx
theorem C02_contract_u64_1 (x : Nat) (y : BitVec 64) (hx : x < 2 ^ 32) (h : IsSpread 32 1 x y.toNat) : (contractBits64_1 y).toNat = x :=
  contract_of_lin contract64_1_lin 32 1 (by omega) (fun k hk hd => contract64_1_basis k hk hd.1) x y h hx
theorem C02_contract_u32_1 (x : Nat) (y : BitVec 32) (hx : x < 2 ^ 16) (h : IsSpread 16 1 x y.toNat) : (contractBits32_1 y).toNat = x :=
  contract_of_lin contract32_1_lin 16 1 (by omega) (fun k hk hd => contract32_1_basis k hk hd.1) x y h hx

/-- C02: round trips. -/
theorem C02_contract_expand_u64_2 (x : BitVec 64) (hx : x.toNat < 2 ^ 21) : contractBits64_2 (expandBits64_2 x) = x :=
  BitVec.eq_of_toNat_eq (C02_contract_u64_2 _ _ hx (C02_expand_u64_2 x))
theorem C02_contract_expand_u32_2 (x : BitVec 32) (hx : x.toNat < 2 ^ 10) : contractBits32_2 (expandBits32_2 x) = x :=
  BitVec.eq_of_toNat_eq (C02_contract_u32_2 _ _ hx (C02_expand_u32_2 x))
theorem C02_contract_expand_u64_1 (x : BitVec 64) (hx : x.toNat < 2 ^ 32) : contractBits64_1 (expandBits64_1 x) = x :=
  BitVec.eq_of_toNat_eq (C02_contract_u64_1 _ _ hx (C02_expand_u64_1 x hx))
theorem C02_contract_expand_u32_1 (x : BitVec 32) (hx : x.toNat < 2 ^ 16) : contractBits32_1 (expandBits32_1 x) = x :=
  BitVec.eq_of_toNat_eq (C02_contract_u32_1 _ _ hx (C02_expand_u32_1 x hx))
theorem C02_contract_expand_0 {w : Nat} (x : BitVec w) : contractBits_0 (expandBits_0 x) = x := rfl

example : expandBits32_2 0x2a5#32 = 0x08208041#32 := by decide
example : contractBits32_2 0x08208041#32 = 0x2a5#32 := by decide

/-! ### C01 -/

/-- Specification: `code` interleaves the low `b` bits of `x`, `y`, `z`: bit `3k+2` is bit `k` of `x`, bit `3k+1` bit `k` of `y`,
bit `3k` bit `k` of `z`. -/
def IsMorton (b code x y z : Nat) : Prop :=
  ∀ j, code.testBit j = (decide (j / 3 < b) &&
    (if j % 3 = 2 then x.testBit (j / 3) else if j % 3 = 1 then y.testBit (j / 3) else z.testBit (j / 3)))

theorem morton_combine {w b : Nat} (hw : 3 * b ≤ w) (xx yy zz : BitVec w) (x y z : Nat) (hx : IsSpread b 2 x xx.toNat)
    (hy : IsSpread b 2 y yy.toNat) (hz : IsSpread b 2 z zz.toNat) (hw2 : 2 < w) :
    IsMorton b (xx * 4#w + yy * 2#w + zz).toNat x y z := by
  have e4 : xx * 4#w = xx <<< 2 := by
    rw [BitVec.shiftLeft_eq_mul_twoPow, show 4#w = BitVec.twoPow w 2 from BitVec.eq_of_toNat_eq (by simp [BitVec.toNat_twoPow])]
  have e2 : yy * 2#w = yy <<< 1 := by
    rw [BitVec.shiftLeft_eq_mul_twoPow, show 2#w = BitVec.twoPow w 1 from BitVec.eq_of_toNat_eq (by simp [BitVec.toNat_twoPow])]
  have gx : ∀ j, (xx <<< 2).getLsbD j = true ↔ j % 3 = 2 ∧ j / 3 < b ∧ x.testBit (j / 3) = true := by
    intro j
    rw [BitVec.getLsbD_shiftLeft]
    simp only [Bool.and_eq_true, decide_eq_true_eq, Bool.not_eq_true', decide_eq_false_iff_not, BitVec.getLsbD]
    rw [hx (j - 2)]
    simp only [Bool.and_eq_true, decide_eq_true_eq]
    constructor
    · rintro ⟨⟨h1, h2⟩, ⟨h3, h4⟩, h5⟩
      rw [show (j - 2) / (2 + 1) = j / 3 by omega] at h5 h4
      exact ⟨by omega, h4, h5⟩
    · rintro ⟨h1, h2, h3⟩
      rw [show (j - 2) / (2 + 1) = j / 3 by omega]
      exact ⟨⟨by omega, by omega⟩, ⟨by omega, h2⟩, h3⟩
  have gy : ∀ j, (yy <<< 1).getLsbD j = true ↔ j % 3 = 1 ∧ j / 3 < b ∧ y.testBit (j / 3) = true := by
    intro j
    rw [BitVec.getLsbD_shiftLeft]
    simp only [Bool.and_eq_true, decide_eq_true_eq, Bool.not_eq_true', decide_eq_false_iff_not, BitVec.getLsbD]
    rw [hy (j - 1)]
    simp only [Bool.and_eq_true, decide_eq_true_eq]
    constructor
    · rintro ⟨⟨h1, h2⟩, ⟨h3, h4⟩, h5⟩
      rw [show (j - 1) / (2 + 1) = j / 3 by omega] at h5 h4
      exact ⟨by omega, h4, h5⟩
    · rintro ⟨h1, h2, h3⟩
      rw [show (j - 1) / (2 + 1) = j / 3 by omega]
      exact ⟨⟨by omega, by omega⟩, ⟨by omega, h2⟩, h3⟩
  have gz : ∀ j, zz.getLsbD j = true ↔ j % 3 = 0 ∧ j / 3 < b ∧ z.testBit (j / 3) = true := by
    intro j
    rw [BitVec.getLsbD, hz j]
    simp only [Bool.and_eq_true, decide_eq_true_eq, and_assoc]
  have d1 : (xx <<< 2) &&& (yy <<< 1) = 0#w := by
    apply BitVec.eq_of_getLsbD_eq
    intro i _
    rw [BitVec.getLsbD_and, BitVec.getLsbD_zero, Bool.eq_false_iff]
    intro h
    rw [Bool.and_eq_true, gx, gy] at h
    omega
  have d2 : ((xx <<< 2) ||| (yy <<< 1)) &&& zz = 0#w := by
    apply BitVec.eq_of_getLsbD_eq
    intro i _
    rw [BitVec.getLsbD_and, BitVec.getLsbD_or, BitVec.getLsbD_zero, Bool.eq_false_iff]
    intro h
    rw [Bool.and_eq_true, Bool.or_eq_true, gx, gy, gz] at h
    omega
  rw [e4, e2, BitVec.add_eq_or_of_and_eq_zero _ _ d1, BitVec.add_eq_or_of_and_eq_zero _ _ d2]
  intro j
  apply bool_eq_iff
  show ((xx <<< 2 ||| yy <<< 1) ||| zz).getLsbD j = true ↔ _
  rw [BitVec.getLsbD_or, BitVec.getLsbD_or, Bool.or_eq_true, Bool.or_eq_true, gx, gy, gz]
  simp only [Bool.and_eq_true, decide_eq_true_eq]
  have h3 : j % 3 = 0 ∨ j % 3 = 1 ∨ j % 3 = 2 := by omega
  rcases h3 with h | h | h <;> simp [h]

/-- C01: the 64 bit code interleaves the low 21 bits of the coordinates. -/
theorem C01_morton64_bits (c : V3 (BitVec 64)) : IsMorton 21 (morton64 c).toNat c.x.toNat c.y.toNat c.z.toNat :=
  morton_combine (by omega) _ _ _ _ _ _ (C02_expand_u64_2 c.x) (C02_expand_u64_2 c.y) (C02_expand_u64_2 c.z) (by omega)

/-- C01: the 32 bit code interleaves the low 10 bits of the coordinates. -/
theorem C01_morton32_bits (c : V3 (BitVec 32)) : IsMorton 10 (morton32 c).toNat c.x.toNat c.y.toNat c.z.toNat :=
  morton_combine (by omega) _ _ _ _ _ _ (C02_expand_u32_2 c.x) (C02_expand_u32_2 c.y) (C02_expand_u32_2 c.z) (by omega)

/-- Coordinates inside the grid of `b` bits per axis. -/
def InGrid (b x y z : Nat) : Prop := x < 2 ^ b ∧ y < 2 ^ b ∧ z < 2 ^ b

theorem testBit_lt {x b k : Nat} (hx : x < 2 ^ b) (h : x.testBit k = true) : k < b := by
  by_contra hc
  rw [Nat.testBit_lt_two_pow (lt_of_lt_of_le hx (Nat.pow_le_pow_right (by omega) (by omega)))] at h
  cases h

theorem isMorton_x {b code x y z : Nat} (h : IsMorton b code x y z) (k : Nat) (hk : k < b) :
    code.testBit (3 * k + 2) = x.testBit k := by
  rw [h, show (3 * k + 2) / 3 = k by omega, show (3 * k + 2) % 3 = 2 by omega]; simp [hk]
theorem isMorton_y {b code x y z : Nat} (h : IsMorton b code x y z) (k : Nat) (hk : k < b) :
    code.testBit (3 * k + 1) = y.testBit k := by
  rw [h, show (3 * k + 1) / 3 = k by omega, show (3 * k + 1) % 3 = 1 by omega]; simp [hk]
theorem isMorton_z {b code x y z : Nat} (h : IsMorton b code x y z) (k : Nat) (hk : k < b) :
    code.testBit (3 * k) = z.testBit k := by
  rw [h, show (3 * k) / 3 = k by omega, show (3 * k) % 3 = 0 by omega]; simp [hk]

theorem isMorton_lt {b code x y z : Nat} (h : IsMorton b code x y z) : code < 2 ^ (3 * b) := by
  apply Nat.lt_pow_two_of_testBit
  intro i hi
  rw [h i]
  have : decide (i / 3 < b) = false := by simp; omega
  rw [this]; rfl

theorem isMorton_inj {b code x y z x' y' z' : Nat} (h : IsMorton b code x y z) (h' : IsMorton b code x' y' z')
    (hg : InGrid b x y z) (hg' : InGrid b x' y' z') : x = x' ∧ y = y' ∧ z = z' := by
  have aux : ∀ {u u' : Nat} (a : Nat), u < 2 ^ b → u' < 2 ^ b → (∀ k < b, code.testBit (3 * k + a) = u.testBit k) →
      (∀ k < b, code.testBit (3 * k + a) = u'.testBit k) → u = u' := by
    intro u u' a hu hu' e e'
    apply Nat.eq_of_testBit_eq
    intro k
    by_cases hk : k < b
    · rw [← e k hk, ← e' k hk]
    · rw [Nat.testBit_lt_two_pow (lt_of_lt_of_le hu (Nat.pow_le_pow_right (by omega) (by omega))),
        Nat.testBit_lt_two_pow (lt_of_lt_of_le hu' (Nat.pow_le_pow_right (by omega) (by omega)))]
  exact ⟨aux 2 hg.1 hg'.1 (isMorton_x h) (isMorton_x h'), aux 1 hg.2.1 hg'.2.1 (isMorton_y h) (isMorton_y h'),
    aux 0 hg.2.2 hg'.2.2 (isMorton_z h) (isMorton_z h')⟩

/-- The highest bit where two numbers differ. -/
theorem exists_top_diff {a b : Nat} (h : a < b) : ∃ i, a.testBit i = false ∧ b.testBit i = true ∧
    ∀ j, i < j → a.testBit j = b.testBit j := by
  have hne : a ^^^ b ≠ 0 := by
    intro h0
    rw [Nat.xor_eq_zero_iff] at h0
    omega
  refine ⟨(a ^^^ b).log2, ?_⟩
  have h1 := Nat.testBit_log2 hne
  have h2 : ∀ j, (a ^^^ b).log2 < j → a.testBit j = b.testBit j := by
    intro j hj
    have : (a ^^^ b).testBit j = false :=
      Nat.testBit_lt_two_pow (lt_of_lt_of_le Nat.lt_log2_self (Nat.pow_le_pow_right (by omega) (by omega)))
    rw [Nat.testBit_xor] at this
    revert this
    cases a.testBit j <;> cases b.testBit j <;> simp
  rw [Nat.testBit_xor] at h1
  cases ha : a.testBit (a ^^^ b).log2 with
  | false => rw [ha] at h1; simp at h1; exact ⟨rfl, h1, h2⟩
  | true =>
    rw [ha] at h1; simp at h1
    have := Nat.lt_of_testBit _ h1 ha (fun j hj => (h2 j hj).symm)
    omega

/-- A code with the same other coordinates and one larger coordinate is larger. -/
theorem isMorton_mono {b c c' x y z x' y' z' : Nat} (h : IsMorton b c x y z) (h' : IsMorton b c' x' y' z')
    (hg' : InGrid b x' y' z')
    (hlt : (x < x' ∧ y = y' ∧ z = z') ∨ (x = x' ∧ y < y' ∧ z = z') ∨ (x = x' ∧ y = y' ∧ z < z')) : c < c' := by
  rcases hlt with ⟨hu, rfl, rfl⟩ | ⟨rfl, hu, rfl⟩ | ⟨rfl, rfl, hu⟩
  all_goals
    obtain ⟨i, h1, h2, h3⟩ := exists_top_diff hu
  · have hi := testBit_lt hg'.1 h2
    refine Nat.lt_of_testBit (3 * i + 2) (by rw [isMorton_x h i hi, h1]) (by rw [isMorton_x h' i hi, h2]) ?_
    intro j hj
    rw [h j, h' j]
    by_cases hm : j % 3 = 2
    · rw [if_pos hm, if_pos hm, h3 (j / 3) (by omega)]
    · rw [if_neg hm, if_neg hm]
  · have hi := testBit_lt hg'.2.1 h2
    refine Nat.lt_of_testBit (3 * i + 1) (by rw [isMorton_y h i hi, h1]) (by rw [isMorton_y h' i hi, h2]) ?_
    intro j hj
    rw [h j, h' j]
    by_cases hm : j % 3 = 1
    · rw [if_neg (by omega), if_pos hm, if_neg (by omega), if_pos hm, h3 (j / 3) (by omega)]
    · rw [if_neg hm, if_neg hm]
  · have hi := testBit_lt hg'.2.2 h2
    refine Nat.lt_of_testBit (3 * i) (by rw [isMorton_z h i hi, h1]) (by rw [isMorton_z h' i hi, h2]) ?_
    intro j hj
    rw [h j, h' j]
    by_cases hm : j % 3 = 0
    · rw [if_neg (by omega), if_neg (by omega), if_neg (by omega), if_neg (by omega), h3 (j / 3) (by omega)]
    · have : j % 3 = 1 ∨ j % 3 = 2 := by omega
      rcases this with h4 | h4 <;> simp [h4]

/-- Decoding one axis: mask the bits `3k+a`, shift, contract. -/
theorem decode_axis {w b u : Nat} (hw : 3 * b ≤ w) (hb : b ≤ u) (hu : u ≤ w) {f : BitVec w → BitVec w} (hl : OrLin f)
    (hbas : ∀ k < w, k % 3 = 0 → k / 3 < b → f (BitVec.twoPow w k) = BitVec.twoPow w (k / 3)) (mask : BitVec w) (a : Nat)
    (ha : a < 3) (hm : ∀ j, mask.getLsbD j = true ↔ j % 3 = a ∧ j / 3 < b) (m : BitVec w) (k : Nat) :
    ((f ((m &&& mask) >>> a)).setWidth u).toNat.testBit k = (decide (k < b) && m.toNat.testBit (3 * k + a)) := by
  have hdom : ∀ j, ((m &&& mask) >>> a).getLsbD j = true ↔ (j % 3 = 0 ∧ j / 3 < b) ∧ m.getLsbD (j + a) = true := by
    intro j
    rw [BitVec.getLsbD_ushiftRight, BitVec.getLsbD_and, Bool.and_eq_true, hm, Nat.add_comm a j]
    constructor
    · rintro ⟨h1, h2, h3⟩; exact ⟨⟨by omega, by omega⟩, h1⟩
    · rintro ⟨⟨h1, h2⟩, h3⟩; exact ⟨h3, by omega, by omega⟩
  apply bool_eq_iff
  show ((f ((m &&& mask) >>> a)).setWidth u).getLsbD k = true ↔ _
  rw [BitVec.getLsbD_setWidth, Bool.and_eq_true, decide_eq_true_eq,
    hl.bits_on (fun k => k % 3 = 0 ∧ k / 3 < b) (· / 3) (fun k hk hd => hbas k hk hd.1 hd.2) _ (fun k hk => ((hdom k).1 hk).1),
    Bool.and_eq_true, decide_eq_true_eq]
  constructor
  · rintro ⟨h1, j, h2, h3, h4⟩
    obtain ⟨⟨h5, h6⟩, h7⟩ := (hdom j).1 h2
    refine ⟨by omega, ?_⟩
    rw [show 3 * k + a = j + a by omega]; exact h7
  · rintro ⟨h1, h2⟩
    exact ⟨by omega, 3 * k, (hdom (3 * k)).2 ⟨⟨by omega, by omega⟩, h2⟩, by omega, by omega⟩

theorem bits_of_decide {w : Nat} (mask : BitVec w) (P : Nat → Prop) [DecidablePred P] (hP : ∀ j, P j → j < w)
    (h : ∀ j < w, mask.getLsbD j = decide (P j)) (j : Nat) : mask.getLsbD j = true ↔ P j := by
  by_cases hj : j < w
  · rw [h j hj, decide_eq_true_eq]
  · rw [BitVec.getLsbD_of_ge _ _ (by omega)]
    constructor
    · intro h; cases h
    · intro h; exact absurd (hP j h) hj

/-- Decoded coordinates of a 64 bit code, bit by bit. -/
theorem icoord64_bits (m : BitVec 64) (k : Nat) :
    (icoord64 m).x.toNat.testBit k = (decide (k < 21) && m.toNat.testBit (3 * k + 2)) ∧
    (icoord64 m).y.toNat.testBit k = (decide (k < 21) && m.toNat.testBit (3 * k + 1)) ∧
    (icoord64 m).z.toNat.testBit k = (decide (k < 21) && m.toNat.testBit (3 * k + 0)) := by
  refine ⟨?_, ?_, ?_⟩
  · exact decide_icoord_aux64 2 (by omega) _ (bits_of_decide _ (fun j => j % 3 = 2 ∧ j / 3 < 21) (by intro j h; omega) (by decide +kernel)) m k
  · exact decide_icoord_aux64 1 (by omega) _ (bits_of_decide _ (fun j => j % 3 = 1 ∧ j / 3 < 21) (by intro j h; omega) (by decide +kernel)) m k
  · exact decide_icoord_aux64 0 (by omega) _ (bits_of_decide _ (fun j => j % 3 = 0 ∧ j / 3 < 21) (by intro j h; omega) (by decide +kernel)) m k
where
  decide_icoord_aux64 (a : Nat) (ha : a < 3) (mask : BitVec 64) (hm : ∀ j, mask.getLsbD j = true ↔ j % 3 = a ∧ j / 3 < 21)
      (m : BitVec 64) (k : Nat) : ((contractBits64_2 ((m &&& mask) >>> a)).setWidth 32).toNat.testBit k =
      (decide (k < 21) && m.toNat.testBit (3 * k + a)) :=
    decode_axis (by omega) (by omega) (by omega) contract64_2_lin contract64_2_basis mask a ha hm m k

/-- Decoded coordinates of a 32 bit code, bit by bit. -/
theorem icoord32_bits (m : BitVec 32) (k : Nat) :
    (icoord32 m).x.toNat.testBit k = (decide (k < 10) && m.toNat.testBit (3 * k + 2)) ∧
    (icoord32 m).y.toNat.testBit k = (decide (k < 10) && m.toNat.testBit (3 * k + 1)) ∧
    (icoord32 m).z.toNat.testBit k = (decide (k < 10) && m.toNat.testBit (3 * k + 0)) := by
  refine ⟨?_, ?_, ?_⟩
  · exact decide_icoord_aux32 2 (by omega) _ (bits_of_decide _ (fun j => j % 3 = 2 ∧ j / 3 < 10) (by intro j h; omega) (by decide +kernel)) m k
  · exact decide_icoord_aux32 1 (by omega) _ (bits_of_decide _ (fun j => j % 3 = 1 ∧ j / 3 < 10) (by intro j h; omega) (by decide +kernel)) m k
  · exact decide_icoord_aux32 0 (by omega) _ (bits_of_decide _ (fun j => j % 3 = 0 ∧ j / 3 < 10) (by intro j h; omega) (by decide +kernel)) m k
where
  decide_icoord_aux32 (a : Nat) (ha : a < 3) (mask : BitVec 32) (hm : ∀ j, mask.getLsbD j = true ↔ j % 3 = a ∧ j / 3 < 10)
      (m : BitVec 32) (k : Nat) : ((contractBits32_2 ((m &&& mask) >>> a)).setWidth 16).toNat.testBit k =
      (decide (k < 10) && m.toNat.testBit (3 * k + a)) :=
    decode_axis (by omega) (by omega) (by omega) contract32_2_lin contract32_2_basis mask a ha hm m k

theorem eq_of_axis {b u v code a : Nat} (hu : u < 2 ^ b) (hv : ∀ k, v.testBit k = (decide (k < b) && code.testBit (3 * k + a)))
    (hc : ∀ k < b, code.testBit (3 * k + a) = u.testBit k) : v = u := by
  apply Nat.eq_of_testBit_eq
  intro k
  rw [hv k]
  by_cases hk : k < b
  · rw [hc k hk]; simp [hk]
  · rw [Nat.testBit_lt_two_pow (lt_of_lt_of_le hu (Nat.pow_le_pow_right (by omega) (by omega)))]; simp [hk]

/-- C01: decoding the 64 bit code gives back the coordinates. -/
theorem C01_decode64 (c : V3 (BitVec 64)) (hg : InGrid 21 c.x.toNat c.y.toNat c.z.toNat) :
    (icoord64 (morton64 c)).x.toNat = c.x.toNat ∧ (icoord64 (morton64 c)).y.toNat = c.y.toNat ∧
    (icoord64 (morton64 c)).z.toNat = c.z.toNat :=
  ⟨eq_of_axis hg.1 (fun k => (icoord64_bits _ k).1) (isMorton_x (C01_morton64_bits c)),
   eq_of_axis hg.2.1 (fun k => (icoord64_bits _ k).2.1) (isMorton_y (C01_morton64_bits c)),
   eq_of_axis (a := 0) hg.2.2 (fun k => (icoord64_bits _ k).2.2) (isMorton_z (C01_morton64_bits c))⟩

/-- C01: decoding the 32 bit code gives back the coordinates. -/
theorem C01_decode32 (c : V3 (BitVec 32)) (hg : InGrid 10 c.x.toNat c.y.toNat c.z.toNat) :
    (icoord32 (morton32 c)).x.toNat = c.x.toNat ∧ (icoord32 (morton32 c)).y.toNat = c.y.toNat ∧
    (icoord32 (morton32 c)).z.toNat = c.z.toNat :=
  ⟨eq_of_axis hg.1 (fun k => (icoord32_bits _ k).1) (isMorton_x (C01_morton32_bits c)),
   eq_of_axis hg.2.1 (fun k => (icoord32_bits _ k).2.1) (isMorton_y (C01_morton32_bits c)),
   eq_of_axis (a := 0) hg.2.2 (fun k => (icoord32_bits _ k).2.2) (isMorton_z (C01_morton32_bits c))⟩

/-- C01: different triples have different codes, larger coordinates larger codes, and no code is the reserved `err_code`
(`2^64-1`). -/
theorem C01_order64 (c c' : V3 (BitVec 64)) (hg : InGrid 21 c.x.toNat c.y.toNat c.z.toNat)
    (hg' : InGrid 21 c'.x.toNat c'.y.toNat c'.z.toNat) :
    (morton64 c = morton64 c' → c = c') ∧
    ((c.x < c'.x ∧ c.y = c'.y ∧ c.z = c'.z ∨ c.x = c'.x ∧ c.y < c'.y ∧ c.z = c'.z ∨ c.x = c'.x ∧ c.y = c'.y ∧ c.z < c'.z) →
      morton64 c < morton64 c') ∧
    (morton64 c).toNat < 2 ^ 63 ∧ morton64 c ≠ 18446744073709551615#64 := by
  have hlt := isMorton_lt (C01_morton64_bits c)
  refine ⟨?_, ?_, hlt, ?_⟩
  · intro he
    have h1 := C01_morton64_bits c
    rw [he] at h1
    obtain ⟨a, b, d⟩ := isMorton_inj h1 (C01_morton64_bits c') hg hg'
    obtain ⟨x, y, z⟩ := c; obtain ⟨x', y', z'⟩ := c'
    simp only [V3.mk.injEq]
    exact ⟨BitVec.eq_of_toNat_eq a, BitVec.eq_of_toNat_eq b, BitVec.eq_of_toNat_eq d⟩
  · intro h
    rw [BitVec.lt_def]
    apply isMorton_mono (C01_morton64_bits c) (C01_morton64_bits c') hg'
    rcases h with ⟨h1, h2, h3⟩ | ⟨h1, h2, h3⟩ | ⟨h1, h2, h3⟩
    · exact Or.inl ⟨BitVec.lt_def.1 h1, by rw [h2], by rw [h3]⟩
    · exact Or.inr (Or.inl ⟨by rw [h1], BitVec.lt_def.1 h2, by rw [h3]⟩)
    · exact Or.inr (Or.inr ⟨by rw [h1], by rw [h2], BitVec.lt_def.1 h3⟩)
  · intro he
    rw [he] at hlt
    revert hlt; decide

/-- C01: the same for 32 bit codes (`err_code = 2^32-1`). -/
theorem C01_order32 (c c' : V3 (BitVec 32)) (hg : InGrid 10 c.x.toNat c.y.toNat c.z.toNat)
    (hg' : InGrid 10 c'.x.toNat c'.y.toNat c'.z.toNat) :
    (morton32 c = morton32 c' → c = c') ∧
    ((c.x < c'.x ∧ c.y = c'.y ∧ c.z = c'.z ∨ c.x = c'.x ∧ c.y < c'.y ∧ c.z = c'.z ∨ c.x = c'.x ∧ c.y = c'.y ∧ c.z < c'.z) →
      morton32 c < morton32 c') ∧
    (morton32 c).toNat < 2 ^ 30 ∧ morton32 c ≠ 4294967295#32 := by
  have hlt := isMorton_lt (C01_morton32_bits c)
  refine ⟨?_, ?_, hlt, ?_⟩
  · intro he
    have h1 := C01_morton32_bits c
    rw [he] at h1
    obtain ⟨a, b, d⟩ := isMorton_inj h1 (C01_morton32_bits c') hg hg'
    obtain ⟨x, y, z⟩ := c; obtain ⟨x', y', z'⟩ := c'
    simp only [V3.mk.injEq]
    exact ⟨BitVec.eq_of_toNat_eq a, BitVec.eq_of_toNat_eq b, BitVec.eq_of_toNat_eq d⟩
  · intro h
    rw [BitVec.lt_def]
    apply isMorton_mono (C01_morton32_bits c) (C01_morton32_bits c') hg'
    rcases h with ⟨h1, h2, h3⟩ | ⟨h1, h2, h3⟩ | ⟨h1, h2, h3⟩
    · exact Or.inl ⟨BitVec.lt_def.1 h1, by rw [h2], by rw [h3]⟩
    · exact Or.inr (Or.inl ⟨by rw [h1], BitVec.lt_def.1 h2, by rw [h3]⟩)
    · exact Or.inr (Or.inr ⟨by rw [h1], by rw [h2], BitVec.lt_def.1 h3⟩)
  · intro he
    rw [he] at hlt
    revert hlt; decide

example : InGrid 21 (0x1fffff#64).toNat (5#64).toNat (0#64).toNat := by unfold InGrid; decide
example : morton64 ⟨5, 3, 6⟩ = 0b101011110#64 := by decide
example : icoord64 0b101011110#64 = ⟨5, 3, 6⟩ := by decide
example : morton32 ⟨1023, 1023, 1023⟩ = 0x3fffffff#32 := by decide

end Shamrock
