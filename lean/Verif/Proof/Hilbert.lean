import Verif.Model.Hilbert
import Verif.Props.Morton
/-! Recursive form of the Hilbert index. -/
namespace Shamrock

/-! ### Recursive description of the curve -/

/-- Reflection in the cube of side `2^b`. -/
def hRefl (b : Nat) (c : Bool) (l : Nat) : Nat := if c then 2 ^ b - 1 - l else l

/-- The symmetry applied to the coordinates inside the octant `a`. -/
def hT0 (b : Nat) (a : Bool) (p : V3 Nat) : V3 Nat := if a then ⟨2 ^ b - 1 - p.x, p.y, p.z⟩ else p
def hT1 (b : Nat) (a : Bool) (p : V3 Nat) : V3 Nat := if a then ⟨2 ^ b - 1 - p.x, p.y, p.z⟩ else ⟨p.y, p.x, p.z⟩
def hT2 (b : Nat) (a : Bool) (p : V3 Nat) : V3 Nat := if a then ⟨2 ^ b - 1 - p.x, p.y, p.z⟩ else ⟨p.z, p.y, p.x⟩
def hT (b : Nat) (a : V3 Bool) (p : V3 Nat) : V3 Nat := hT2 b a.z (hT1 b a.y (hT0 b a.x p))

/-- Rank of octant `a` on the curve (Gray code), `s` tells whether the curve is run backwards. -/
def hDigit (s : Bool) (a : V3 Bool) : Nat :=
  4 * (a.x ^^ s).toNat + 2 * ((a.x ^^ a.y) ^^ s).toNat + ((a.x ^^ a.y ^^ a.z) ^^ s).toNat

/-- Octant of a point of the cube of side `2^(b+1)`. -/
def hOct (b : Nat) (p : V3 Nat) : V3 Bool := ⟨p.x.testBit b, p.y.testBit b, p.z.testBit b⟩

/-- Position inside the octant. -/
def hLow (b : Nat) (p : V3 Nat) : V3 Nat := ⟨p.x % 2 ^ b, p.y % 2 ^ b, p.z % 2 ^ b⟩

/-- The curve of order `b`. -/
def hIdx : Nat → Bool → V3 Nat → Nat
  | 0, _, _ => 0
  | b + 1, s, p =>
    let a := hOct b p
    hDigit s a * 8 ^ b + hIdx b (s ^^ (a.x ^^ a.y ^^ a.z)) (hT b a (hLow b p))

/-- The point is in the cube of side `2^b`. -/
def hIn (b : Nat) (p : V3 Nat) : Prop := p.x < 2 ^ b ∧ p.y < 2 ^ b ∧ p.z < 2 ^ b

theorem hT_in (b : Nat) (a : V3 Bool) (p : V3 Nat) (h : hIn b p) : hIn b (hT b a p) := by
  obtain ⟨x, y, z⟩ := p
  obtain ⟨a0, a1, a2⟩ := a
  unfold hIn hT hT0 hT1 hT2 at *
  simp only at h ⊢
  generalize 2 ^ b = B at *
  cases a0 <;> cases a1 <;> cases a2 <;> simp only [if_true, Bool.false_eq_true, if_false] <;> omega

theorem hLow_in (b : Nat) (p : V3 Nat) : hIn b (hLow b p) := by
  have := Nat.two_pow_pos b
  exact ⟨Nat.mod_lt _ this, Nat.mod_lt _ this, Nat.mod_lt _ this⟩

theorem hDigit_le (s : Bool) (a : V3 Bool) : hDigit s a ≤ 7 := by
  obtain ⟨a0, a1, a2⟩ := a
  cases s <;> cases a0 <;> cases a1 <;> cases a2 <;> decide

theorem hIdx_lt (b : Nat) : ∀ s p, hIdx b s p < 8 ^ b := by
  induction b with
  | zero => intro s p; simp [hIdx]
  | succ b ih =>
    intro s p
    simp only [hIdx]
    have h1 := ih (s ^^ ((hOct b p).x ^^ (hOct b p).y ^^ (hOct b p).z)) (hT b (hOct b p) (hLow b p))
    have h2 := hDigit_le s (hOct b p)
    have : hDigit s (hOct b p) * 8 ^ b ≤ 7 * 8 ^ b := Nat.mul_le_mul_right _ h2
    rw [Nat.pow_succ]; omega

/-! ### Bit manipulations -/

theorem xor_cat (k h l h' l' : Nat) (hl : l < 2 ^ k) (hl' : l' < 2 ^ k) :
    (2 ^ k * h + l) ^^^ (2 ^ k * h' + l') = 2 ^ k * (h ^^^ h') + (l ^^^ l') := by
  apply Nat.eq_of_testBit_eq
  intro i
  rw [Nat.testBit_xor, Nat.testBit_two_pow_mul_add _ hl, Nat.testBit_two_pow_mul_add _ hl', Nat.testBit_two_pow_mul_add _ (Nat.xor_lt_two_pow hl hl')]
  split <;> simp [Nat.testBit_xor]

theorem and_cat_low (k h l l' : Nat) (hl : l < 2 ^ k) (hl' : l' < 2 ^ k) : (2 ^ k * h + l) &&& l' = l &&& l' := by
  apply Nat.eq_of_testBit_eq
  intro i
  rw [Nat.testBit_and, Nat.testBit_and, Nat.testBit_two_pow_mul_add _ hl]
  split
  · rfl
  · rw [Nat.testBit_lt_two_pow (lt_of_lt_of_le hl' (Nat.pow_le_pow_right (by omega) (by omega)))]; simp

theorem xor_ones (k l : Nat) (hl : l < 2 ^ k) : l ^^^ (2 ^ k - 1) = 2 ^ k - 1 - l := by
  apply Nat.eq_of_testBit_eq
  intro i
  rw [Nat.testBit_xor, Nat.testBit_two_pow_sub_one, show 2 ^ k - 1 - l = 2 ^ k - (l + 1) by omega, Nat.testBit_two_pow_sub_succ hl]
  by_cases hi : i < k
  · simp [hi]
  · rw [Nat.testBit_lt_two_pow (lt_of_lt_of_le hl (Nat.pow_le_pow_right (by omega) (by omega)))]; simp [hi]

/-- Exchanging the low bits. -/
theorem swap_cat (k h l h' l' : Nat) (hl : l < 2 ^ k) (hl' : l' < 2 ^ k) :
    (2 ^ k * h + l) ^^^ (((2 ^ k * h + l) ^^^ (2 ^ k * h' + l')) &&& (2 ^ k - 1)) = 2 ^ k * h + l' ∧
    (2 ^ k * h' + l') ^^^ (((2 ^ k * h + l) ^^^ (2 ^ k * h' + l')) &&& (2 ^ k - 1)) = 2 ^ k * h' + l := by
  have hx := Nat.xor_lt_two_pow hl hl'
  have hp := Nat.two_pow_pos k
  rw [xor_cat k h l h' l' hl hl', and_cat_low k _ _ _ hx (by omega), Nat.and_two_pow_sub_one_eq_mod, Nat.mod_eq_of_lt hx]
  constructor
  · have := xor_cat k h l 0 (l ^^^ l') hl hx
    rw [Nat.mul_zero, Nat.zero_add, Nat.xor_zero] at this
    rw [this, ← Nat.xor_assoc, Nat.xor_self, Nat.zero_xor]
  · have := xor_cat k h' l' 0 (l ^^^ l') hl' hx
    rw [Nat.mul_zero, Nat.zero_add, Nat.xor_zero] at this
    rw [this, Nat.xor_comm l l', ← Nat.xor_assoc, Nat.xor_self, Nat.zero_xor]

theorem refl_cat (k h l : Nat) (hl : l < 2 ^ k) : (2 ^ k * h + l) ^^^ (2 ^ k - 1) = 2 ^ k * h + (2 ^ k - 1 - l) := by
  have hp := Nat.two_pow_pos k
  have := xor_cat k h l 0 (2 ^ k - 1) hl (by omega)
  rw [Nat.mul_zero, Nat.zero_add, Nat.xor_zero] at this
  rw [this, xor_ones k l hl]

/-! ### The loops on natural numbers -/

/-- A triple of words read as naturals. -/
def vNat (X : V3 (BitVec 64)) : V3 Nat := ⟨X.x.toNat, X.y.toNat, X.z.toNat⟩

/-- `2^k * h + l`, coordinate by coordinate. -/
def vCat (k : Nat) (h l : V3 Nat) : V3 Nat := ⟨2 ^ k * h.x + l.x, 2 ^ k * h.y + l.y, 2 ^ k * h.z + l.z⟩

theorem shl_toNat (k : Nat) (hk : k < 64) : (1#64 <<< k).toNat = 2 ^ k := by
  rw [BitVec.toNat_shiftLeft, Nat.shiftLeft_eq, show (1#64).toNat = 1 from rfl, Nat.one_mul]
  exact Nat.mod_eq_of_lt (Nat.pow_lt_pow_right (by omega) hk)

theorem shl_pred_toNat (k : Nat) (hk : k < 64) : (1#64 <<< k - 1).toNat = 2 ^ k - 1 := by
  have hp := Nat.two_pow_pos k
  have h64 : (2 : Nat) ^ k < 2 ^ 64 := Nat.pow_lt_pow_right (by omega) hk
  rw [BitVec.toNat_sub, shl_toNat k hk]
  rw [show (BitVec.toNat (1 : BitVec 64)) = 1 from rfl]
  omega

theorem and_shl_ne_zero (x : BitVec 64) (k : Nat) (hk : k < 64) : (x &&& (1#64 <<< k) ≠ 0) ↔ x.toNat.testBit k = true := by
  rw [ne_eq, ← BitVec.toNat_inj, BitVec.toNat_and, shl_toNat k hk, show (0 : BitVec 64).toNat = 0 from rfl, Nat.and_two_pow]
  have := Nat.two_pow_pos k
  cases x.toNat.testBit k <;> simp

theorem testBit_cat (k h l : Nat) (hl : l < 2 ^ k) : (2 ^ k * h + l).testBit k = h.testBit 0 := by
  rw [Nat.testBit_two_pow_mul_add _ hl, if_neg (by omega), Nat.sub_self]

theorem hilbSub0_cat (k : Nat) (hk : k < 64) (X : V3 (BitVec 64)) (h l : V3 Nat) (hl : hIn k l) (e : vNat X = vCat k h l) :
    vNat (hilbSub0 (1#64 <<< k) X) = vCat k h (hT0 k (h.x.testBit 0) l) := by
  obtain ⟨x, y, z⟩ := X
  simp only [vNat, vCat, V3.mk.injEq] at e
  obtain ⟨e1, e2, e3⟩ := e
  unfold hilbSub0
  simp only [and_shl_ne_zero x k hk, e1, testBit_cat k _ _ hl.1]
  cases hb : h.x.testBit 0
  · simp only [Bool.false_eq_true, if_false, hT0, vNat, vCat, BitVec.xor_self, V3.mk.injEq]
    refine ⟨?_, e2, e3⟩
    rw [← e1]; simp
  · simp only [if_true, hT0, vNat, vCat, V3.mk.injEq]
    refine ⟨?_, e2, e3⟩
    rw [BitVec.toNat_xor, shl_pred_toNat k hk, e1, refl_cat k _ _ hl.1]

theorem hilbSub1_cat (k : Nat) (hk : k < 64) (X : V3 (BitVec 64)) (h l : V3 Nat) (hl : hIn k l) (e : vNat X = vCat k h l) :
    vNat (hilbSub1 (1#64 <<< k) X) = vCat k h (hT1 k (h.y.testBit 0) l) := by
  obtain ⟨x, y, z⟩ := X
  simp only [vNat, vCat, V3.mk.injEq] at e
  obtain ⟨e1, e2, e3⟩ := e
  unfold hilbSub1
  simp only [and_shl_ne_zero y k hk, e2, testBit_cat k _ _ hl.2.1]
  cases hb : h.y.testBit 0
  · simp only [Bool.false_eq_true, if_false, hT1, vNat, vCat, V3.mk.injEq]
    rw [BitVec.toNat_xor, BitVec.toNat_xor, BitVec.toNat_and, BitVec.toNat_xor, shl_pred_toNat k hk, e1, e2]
    have := swap_cat k h.x l.x h.y l.y hl.1 hl.2.1
    exact ⟨this.1, this.2, e3⟩
  · simp only [if_true, hT1, vNat, vCat, V3.mk.injEq]
    refine ⟨?_, e2, e3⟩
    rw [BitVec.toNat_xor, shl_pred_toNat k hk, e1, refl_cat k _ _ hl.1]

theorem hilbSub2_cat (k : Nat) (hk : k < 64) (X : V3 (BitVec 64)) (h l : V3 Nat) (hl : hIn k l) (e : vNat X = vCat k h l) :
    vNat (hilbSub2 (1#64 <<< k) X) = vCat k h (hT2 k (h.z.testBit 0) l) := by
  obtain ⟨x, y, z⟩ := X
  simp only [vNat, vCat, V3.mk.injEq] at e
  obtain ⟨e1, e2, e3⟩ := e
  unfold hilbSub2
  simp only [and_shl_ne_zero z k hk, e3, testBit_cat k _ _ hl.2.2]
  cases hb : h.z.testBit 0
  · simp only [Bool.false_eq_true, if_false, hT2, vNat, vCat, V3.mk.injEq]
    rw [BitVec.toNat_xor, BitVec.toNat_xor, BitVec.toNat_and, BitVec.toNat_xor, shl_pred_toNat k hk, e1, e3]
    have := swap_cat k h.x l.x h.z l.z hl.1 hl.2.2
    exact ⟨this.1, e2, this.2⟩
  · simp only [if_true, hT2, vNat, vCat, V3.mk.injEq]
    refine ⟨?_, e2, e3⟩
    rw [BitVec.toNat_xor, shl_pred_toNat k hk, e1, refl_cat k _ _ hl.1]

theorem hT0_in (b : Nat) (a : Bool) (p : V3 Nat) (h : hIn b p) : hIn b (hT0 b a p) := by
  obtain ⟨h1, h2, h3⟩ := h
  unfold hT0 hIn
  cases a <;> simp only [if_true, Bool.false_eq_true, if_false] <;> refine ⟨by omega, by omega, by omega⟩
theorem hT1_in (b : Nat) (a : Bool) (p : V3 Nat) (h : hIn b p) : hIn b (hT1 b a p) := by
  obtain ⟨h1, h2, h3⟩ := h
  unfold hT1 hIn
  cases a <;> simp only [if_true, Bool.false_eq_true, if_false] <;> refine ⟨by omega, by omega, by omega⟩

/-- The undoing loop, as a recursion on the octants. -/
def hUndo : Nat → V3 Nat → V3 Nat
  | 0, p => p
  | b + 1, p => vCat b ⟨p.x / 2 ^ b, p.y / 2 ^ b, p.z / 2 ^ b⟩ (hUndo b (hT b (hOct b p) (hLow b p)))

theorem hUndo_in (b : Nat) : ∀ p, hIn b p → hIn b (hUndo b p) := by
  induction b with
  | zero => intro p h; exact h
  | succ b ih =>
    intro p h
    have h1 := ih _ (hT_in b (hOct b p) _ (hLow_in b p))
    obtain ⟨g1, g2, g3⟩ := h
    obtain ⟨l1, l2, l3⟩ := h1
    have aux : ∀ (x l : Nat), x < 2 ^ (b + 1) → l < 2 ^ b → 2 ^ b * (x / 2 ^ b) + l < 2 ^ (b + 1) := by
      intro x l hx hl
      rw [Nat.pow_succ] at hx ⊢
      have : x / 2 ^ b < 2 := Nat.div_lt_of_lt_mul (by omega)
      have : 2 ^ b * (x / 2 ^ b) ≤ 2 ^ b * 1 := Nat.mul_le_mul_left _ (by omega)
      omega
    exact ⟨aux _ _ g1 l1, aux _ _ g2 l2, aux _ _ g3 l3⟩

theorem vCat_divmod (b : Nat) (p : V3 Nat) : vCat b ⟨p.x / 2 ^ b, p.y / 2 ^ b, p.z / 2 ^ b⟩ (hLow b p) = p := by
  simp only [vCat, hLow, Nat.div_add_mod]

theorem testBit_div (x b : Nat) : (x / 2 ^ b).testBit 0 = x.testBit b := by
  rw [Nat.testBit_div_two_pow, Nat.zero_add]

/-- The loop leaves the bits above alone. -/
theorem hilbUndo_eq (k : Nat) (hk : k < 64) : ∀ (X : V3 (BitVec 64)) (h l : V3 Nat), hIn (k + 1) l → vNat X = vCat (k + 1) h l →
    vNat (hilbUndo k X) = vCat (k + 1) h (hUndo (k + 1) l) := by
  induction k with
  | zero =>
    intro X h l hl e
    simp only [hilbUndo, hUndo]
    rw [e]
    congr 1
    obtain ⟨h1, h2, h3⟩ := hl
    obtain ⟨x, y, z⟩ := l
    simp only [zero_add, Nat.pow_one] at h1 h2 h3
    have : hT 0 (hOct 0 ⟨x, y, z⟩) (hLow 0 ⟨x, y, z⟩) = ⟨0, 0, 0⟩ := by
      have := hT_in 0 (hOct 0 ⟨x, y, z⟩) _ (hLow_in 0 ⟨x, y, z⟩)
      obtain ⟨a1, a2, a3⟩ := this
      generalize hT 0 (hOct 0 ⟨x, y, z⟩) (hLow 0 ⟨x, y, z⟩) = q at *
      obtain ⟨q1, q2, q3⟩ := q
      simp only [Nat.pow_zero, Nat.lt_one_iff] at a1 a2 a3
      simp only [V3.mk.injEq]
      exact ⟨a1, a2, a3⟩
    rw [this]
    simp [vCat]
  | succ k ih =>
    intro X h l hl e
    -- split the low part
    have hh : vNat X = vCat (k + 1) ⟨2 * h.x + l.x / 2 ^ (k + 1), 2 * h.y + l.y / 2 ^ (k + 1), 2 * h.z + l.z / 2 ^ (k + 1)⟩ (hLow (k + 1) l) := by
      rw [e]
      simp only [vCat, hLow, V3.mk.injEq]
      have aux : ∀ (h l : Nat), 2 ^ (k + 1 + 1) * h + l = 2 ^ (k + 1) * (2 * h + l / 2 ^ (k + 1)) + l % 2 ^ (k + 1) := by
        intro h l
        rw [Nat.mul_add, Nat.add_assoc (2 ^ (k + 1) * (2 * h)), Nat.div_add_mod, ← Nat.mul_assoc, ← Nat.pow_succ]
      exact ⟨aux _ _, aux _ _, aux _ _⟩
    have hoct : ∀ (h l : Nat), (2 * h + l / 2 ^ (k + 1)).testBit 0 = l.testBit (k + 1) := by
      intro h l
      rw [Nat.testBit_zero, ← testBit_div, Nat.testBit_zero, Nat.mul_add_mod]
    have l0 := hLow_in (k + 1) l
    have s0 := hilbSub0_cat (k + 1) hk X _ _ l0 hh
    have l1 := hT0_in (k + 1) (l.x.testBit (k + 1)) _ l0
    simp only [hoct] at s0
    have s1 := hilbSub1_cat (k + 1) hk _ _ _ l1 s0
    have l2 := hT1_in (k + 1) (l.y.testBit (k + 1)) _ l1
    simp only [hoct] at s1
    have s2 := hilbSub2_cat (k + 1) hk _ _ _ l2 s1
    simp only [hoct] at s2
    have l3 := hT_in (k + 1) (hOct (k + 1) l) _ l0
    have := ih (by omega) _ _ _ l3 s2
    simp only [hilbUndo]
    rw [this]
    conv => rhs; rw [hUndo]
    simp only [vCat, V3.mk.injEq]
    have aux : ∀ (h l w : Nat), 2 ^ (k + 1) * (2 * h + l / 2 ^ (k + 1)) + w = 2 ^ (k + 1 + 1) * h + (2 ^ (k + 1) * (l / 2 ^ (k + 1)) + w) := by
      intro h l w
      rw [Nat.mul_add, ← Nat.mul_assoc, ← Nat.pow_succ, Nat.add_assoc]
    exact ⟨aux _ _ _, aux _ _ _, aux _ _ _⟩

/-! ### The mask -/

/-- The mask on natural numbers. -/
def hMask : Nat → Nat → Nat
  | 0, _ => 0
  | k + 1, x => (if x.testBit (k + 1) then 2 ^ (k + 1) - 1 else 0) ^^^ hMask k x

theorem hilbMask_eq (k : Nat) (hk : k < 64) (x : BitVec 64) : ∀ t, (hilbMask k x t).toNat = t.toNat ^^^ hMask k x.toNat := by
  induction k with
  | zero => intro t; simp [hilbMask, hMask]
  | succ k ih =>
    intro t
    simp only [hilbMask, hMask]
    rw [ih (by omega)]
    simp only [and_shl_ne_zero x (k + 1) hk]
    cases x.toNat.testBit (k + 1)
    · simp
    · simp only [if_true]
      rw [BitVec.toNat_xor, shl_pred_toNat (k + 1) hk, Nat.xor_assoc]

theorem hMask_lt (k x : Nat) : hMask k x < 2 ^ k := by
  induction k with
  | zero => simp [hMask]
  | succ k ih =>
    simp only [hMask]
    apply Nat.xor_lt_two_pow
    · split
      · have := Nat.two_pow_pos (k + 1); omega
      · exact Nat.two_pow_pos _
    · exact lt_trans ih (Nat.pow_lt_pow_right (by omega) (by omega))

theorem hMask_mod (k x : Nat) : hMask k (x % 2 ^ (k + 1)) = hMask k x := by
  suffices ∀ j, k < j → hMask k (x % 2 ^ j) = hMask k x from this _ (by omega)
  induction k with
  | zero => intro j _; rfl
  | succ k ih =>
    intro j hj
    simp only [hMask]
    rw [ih j (by omega), Nat.testBit_mod_two_pow]
    simp [hj]

/-! ### Interleaving -/

/-- The interleaving of the low `b` bits. -/
def ilv : Nat → Nat → Nat → Nat → Nat
  | 0, _, _, _ => 0
  | b + 1, x, y, z => 8 ^ b * (4 * (x.testBit b).toNat + 2 * (y.testBit b).toNat + (z.testBit b).toNat) + ilv b x y z

theorem ilv_lt (b x y z : Nat) : ilv b x y z < 2 ^ (3 * b) := by
  induction b with
  | zero => simp [ilv]
  | succ b ih =>
    simp only [ilv]
    have e : (8 : Nat) ^ b = 2 ^ (3 * b) := by rw [show (8 : Nat) = 2 ^ 3 from rfl, ← Nat.pow_mul]
    rw [e, show 3 * (b + 1) = 3 * b + 3 by ring, Nat.pow_add]
    have : 4 * (x.testBit b).toNat + 2 * (y.testBit b).toNat + (z.testBit b).toNat ≤ 7 := by
      cases x.testBit b <;> cases y.testBit b <;> cases z.testBit b <;> decide
    have := Nat.mul_le_mul_left (2 ^ (3 * b)) this
    omega

theorem ilv_isMorton (b x y z : Nat) : IsMorton b (ilv b x y z) x y z := by
  induction b with
  | zero => intro j; simp [ilv]
  | succ b ih =>
    intro j
    simp only [ilv]
    have e : (8 : Nat) ^ b = 2 ^ (3 * b) := by rw [show (8 : Nat) = 2 ^ 3 from rfl, ← Nat.pow_mul]
    rw [e, Nat.testBit_two_pow_mul_add _ (ilv_lt b x y z)]
    by_cases hj : j < 3 * b
    · rw [if_pos hj, ih j]
      have h1 : decide (j / 3 < b) = true := by simp; omega
      have h2 : decide (j / 3 < b + 1) = true := by simp; omega
      rw [h1, h2]
    · rw [if_neg hj]
      by_cases hj2 : j < 3 * b + 3
      · have hd : j / 3 = b := by omega
        rw [hd]
        have h2 : decide (b < b + 1) = true := by simp
        rw [h2]
        obtain h | h | h : j = 3 * b ∨ j = 3 * b + 1 ∨ j = 3 * b + 2 := by omega
        · subst h
          rw [show 3 * b % 3 = 0 by omega, show 3 * b - 3 * b = 0 by omega]
          cases x.testBit b <;> cases y.testBit b <;> cases z.testBit b <;> decide
        · subst h
          rw [show (3 * b + 1) % 3 = 1 by omega, show 3 * b + 1 - 3 * b = 1 by omega]
          cases x.testBit b <;> cases y.testBit b <;> cases z.testBit b <;> decide
        · subst h
          rw [show (3 * b + 2) % 3 = 2 by omega, show 3 * b + 2 - 3 * b = 2 by omega]
          cases x.testBit b <;> cases y.testBit b <;> cases z.testBit b <;> decide
      · have h2 : decide (j / 3 < b + 1) = false := by simp; omega
        rw [h2, Bool.false_and]
        apply Nat.testBit_lt_two_pow
        have : 4 * (x.testBit b).toNat + 2 * (y.testBit b).toNat + (z.testBit b).toNat < 2 ^ 3 := by
          cases x.testBit b <;> cases y.testBit b <;> cases z.testBit b <;> decide
        exact lt_of_lt_of_le this (Nat.pow_le_pow_right (by omega) (by omega))

theorem isMorton_unique {b m m' x y z : Nat} (h : IsMorton b m x y z) (h' : IsMorton b m' x y z) : m = m' :=
  Nat.eq_of_testBit_eq fun i => by rw [h i, h' i]

theorem ilv_congr (b : Nat) (x y z x' y' z' : Nat) (hx : ∀ i < b, x.testBit i = x'.testBit i) (hy : ∀ i < b, y.testBit i = y'.testBit i)
    (hz : ∀ i < b, z.testBit i = z'.testBit i) : ilv b x y z = ilv b x' y' z' := by
  induction b with
  | zero => rfl
  | succ b ih =>
    simp only [ilv]
    rw [hx b (by omega), hy b (by omega), hz b (by omega), ih (fun i hi => hx i (by omega)) (fun i hi => hy i (by omega)) (fun i hi => hz i (by omega))]

/-- All ones on `b` bits, or zero. -/
def hOnes (b : Nat) (s : Bool) : Nat := if s then 2 ^ b - 1 else 0

theorem hOnes_testBit (b : Nat) (s : Bool) (i : Nat) : (hOnes b s).testBit i = (decide (i < b) && s) := by
  unfold hOnes
  cases s <;> simp [Nat.testBit_two_pow_sub_one]

/-- The Gray encoding and the mask, then the interleaving. -/
def hEnc (b : Nat) (s : Bool) (p : V3 Nat) : Nat :=
  let g1 := p.y ^^^ p.x
  let g2 := p.z ^^^ g1
  let t := hMask (b - 1) g2 ^^^ hOnes b s
  ilv b (p.x ^^^ t) (g1 ^^^ t) (g2 ^^^ t)

theorem hMask_testBit_top (k x i : Nat) (h : k ≤ i) : (hMask k x).testBit i = false :=
  Nat.testBit_lt_two_pow (lt_of_lt_of_le (hMask_lt k x) (Nat.pow_le_pow_right (by omega) h))

theorem hEnc_congr (b : Nat) (s : Bool) (p q : V3 Nat) (hx : ∀ i < b, p.x.testBit i = q.x.testBit i) (hy : ∀ i < b, p.y.testBit i = q.y.testBit i)
    (hz : ∀ i < b, p.z.testBit i = q.z.testBit i) : hEnc b s p = hEnc b s q := by
  have hm : ∀ (k x y : Nat), (∀ i ≤ k, x.testBit i = y.testBit i) → hMask k x = hMask k y := by
    intro k
    induction k with
    | zero => intro x y _; rfl
    | succ k ih => intro x y h; simp only [hMask]; rw [h (k + 1) (by omega), ih x y (fun i hi => h i (by omega))]
  unfold hEnc
  simp only
  have hg : ∀ i < b, (p.z ^^^ (p.y ^^^ p.x)).testBit i = (q.z ^^^ (q.y ^^^ q.x)).testBit i := by
    intro i hi
    simp only [Nat.testBit_xor, hx i hi, hy i hi, hz i hi]
  cases b with
  | zero => rfl
  | succ b =>
    rw [hm (b + 1 - 1) _ _ (fun i hi => hg i (by omega))]
    apply ilv_congr
    · intro i hi; rw [Nat.testBit_xor, Nat.testBit_xor q.x, hx i hi]
    · intro i hi; simp only [Nat.testBit_xor, hx i hi, hy i hi]
    · intro i hi; rw [Nat.testBit_xor, Nat.testBit_xor (q.z ^^^ (q.y ^^^ q.x)), hg i hi]

theorem hEnc_succ (b : Nat) (s : Bool) (p : V3 Nat) :
    hEnc (b + 1) s p = hDigit s (hOct b p) * 8 ^ b + hEnc b (s ^^ ((hOct b p).x ^^ (hOct b p).y ^^ (hOct b p).z)) p := by
  unfold hEnc
  simp only [ilv, Nat.add_sub_cancel]
  congr 1
  · rw [Nat.mul_comm]
    congr 1
    simp only [Nat.testBit_xor, hMask_testBit_top b _ b (le_refl b), hOnes_testBit, hDigit, hOct]
    have : decide (b < b + 1) = true := by simp
    rw [this]
    cases p.x.testBit b <;> cases p.y.testBit b <;> cases p.z.testBit b <;> cases s <;> decide
  · have key : ∀ i < b, (hMask b (p.z ^^^ (p.y ^^^ p.x)) ^^^ hOnes (b + 1) s).testBit i =
        (hMask (b - 1) (p.z ^^^ (p.y ^^^ p.x)) ^^^ hOnes b (s ^^ ((hOct b p).x ^^ (hOct b p).y ^^ (hOct b p).z))).testBit i := by
      intro i hi
      obtain ⟨c, rfl⟩ : ∃ c, b = c + 1 := ⟨b - 1, by omega⟩
      simp only [Nat.add_sub_cancel, hMask]
      have e1 : ∀ B : Bool, (if B then 2 ^ (c + 1) - 1 else 0) = hOnes (c + 1) B := by intro B; rfl
      rw [e1]
      simp only [Nat.testBit_xor, hOnes_testBit, hOct]
      have h1 : decide (i < c + 1) = true := by simp; omega
      have h2 : decide (i < c + 1 + 1) = true := by simp; omega
      rw [h1, h2]
      cases p.x.testBit (c + 1) <;> cases p.y.testBit (c + 1) <;> cases p.z.testBit (c + 1) <;> cases s <;> cases (hMask c (p.z ^^^ (p.y ^^^ p.x))).testBit i <;> rfl
    apply ilv_congr
    · intro i hi; rw [Nat.testBit_xor, Nat.testBit_xor p.x, key i hi]
    · intro i hi; rw [Nat.testBit_xor, Nat.testBit_xor (p.y ^^^ p.x), key i hi]
    · intro i hi; rw [Nat.testBit_xor, Nat.testBit_xor (p.z ^^^ (p.y ^^^ p.x)), key i hi]

theorem hEnc_undo (b : Nat) : ∀ s p, hEnc b s (hUndo b p) = hIdx b s p := by
  induction b with
  | zero => intro s p; rfl
  | succ b ih =>
    intro s p
    rw [hEnc_succ]
    simp only [hIdx]
    have hin := hT_in b (hOct b p) _ (hLow_in b p)
    have hu : hIn b (hUndo b (hT b (hOct b p) (hLow b p))) := hUndo_in b _ hin
    have ho : hOct b (hUndo (b + 1) p) = hOct b p := by
      have aux : ∀ q : V3 Nat, hIn b q → hOct b (vCat b ⟨p.x / 2 ^ b, p.y / 2 ^ b, p.z / 2 ^ b⟩ q) = hOct b p := by
        intro q hq
        simp only [hOct, vCat, testBit_cat b _ _ hq.1, testBit_cat b _ _ hq.2.1, testBit_cat b _ _ hq.2.2, testBit_div]
      exact aux _ hu
    rw [ho, ← ih]
    congr 1
    apply hEnc_congr
    · intro i hi; simp only [hUndo, vCat]; rw [Nat.testBit_two_pow_mul_add _ hu.1, if_pos hi]
    · intro i hi; simp only [hUndo, vCat]; rw [Nat.testBit_two_pow_mul_add _ hu.2.1, if_pos hi]
    · intro i hi; simp only [hUndo, vCat]; rw [Nat.testBit_two_pow_mul_add _ hu.2.2, if_pos hi]

/-- The code computes the recursive curve. -/
theorem hilbertIndex3_eq (x y z : BitVec 64) (hx : x.toNat < 2 ^ 21) (hy : y.toNat < 2 ^ 21) (hz : z.toNat < 2 ^ 21) :
    (hilbertIndex3 21 x y z).toNat = hIdx 21 false ⟨x.toNat, y.toNat, z.toNat⟩ := by
  rw [← hEnc_undo]
  have hu := hilbUndo_eq 20 (by omega) ⟨x, y, z⟩ ⟨0, 0, 0⟩ ⟨x.toNat, y.toNat, z.toNat⟩ ⟨hx, hy, hz⟩ (by simp [vNat, vCat])
  have hv : vNat (hilbUndo 20 ⟨x, y, z⟩) = hUndo 21 ⟨x.toNat, y.toNat, z.toNat⟩ := by
    rw [hu]; simp [vCat]
  unfold hilbertIndex3
  simp only [show 21 - 1 = 20 from rfl]
  generalize hilbUndo 20 ⟨x, y, z⟩ = X at *
  rw [← hv]
  unfold hEnc vNat
  simp only [show 21 - 1 = 20 from rfl]
  have hm := hilbMask_eq 20 (by omega) (X.z ^^^ (X.y ^^^ X.x)) 0
  generalize hilbMask 20 (X.z ^^^ (X.y ^^^ X.x)) 0 = t at *
  have hmt : t.toNat = hMask 20 (X.z.toNat ^^^ (X.y.toNat ^^^ X.x.toNat)) ^^^ hOnes 21 false := by
    rw [hm]; simp [hOnes]
  rw [← hmt]
  have hmul : ∀ a : BitVec 64, a <<< 2 = a * 4#64 := by
    intro a
    rw [BitVec.shiftLeft_eq_mul_twoPow, show 4#64 = BitVec.twoPow 64 2 from rfl]
  have hmul1 : ∀ a : BitVec 64, a <<< 1 = a * 2#64 := by
    intro a
    rw [BitVec.shiftLeft_eq_mul_twoPow, show 2#64 = BitVec.twoPow 64 1 from rfl]
  rw [hmul, hmul1]
  have := morton_combine (w := 64) (b := 21) (by omega) _ _ _ _ _ _ (C02_expand_u64_2 (X.x ^^^ t)) (C02_expand_u64_2 (X.y ^^^ X.x ^^^ t))
    (C02_expand_u64_2 (X.z ^^^ (X.y ^^^ X.x) ^^^ t)) (by omega)
  have h2 := ilv_isMorton 21 (X.x ^^^ t).toNat (X.y ^^^ X.x ^^^ t).toNat (X.z ^^^ (X.y ^^^ X.x) ^^^ t).toNat
  rw [isMorton_unique this h2]
  simp only [BitVec.toNat_xor]

end Shamrock
