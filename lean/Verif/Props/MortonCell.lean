import Verif.Props.Morton
/-! C04: the boxes of `sycl_compute_cell_ranges` are exactly the sets of positions with a given Morton prefix. -/
namespace Shamrock

/-- One axis: the interval of the cell is the set of coordinates with the prescribed high bits. -/
theorem axis_box {m s a t X0 x : Nat} (ha : a < 3) (ht : t = (s + 2 - a) / 3)
    (hX : ∀ k, X0.testBit k = (decide (s ≤ 3 * k + a) && m.testBit (3 * k + a))) :
    (X0 ≤ x ∧ x < X0 + 2 ^ t) ↔ ∀ k, s ≤ 3 * k + a → x.testBit k = m.testBit (3 * k + a) := by
  have hkt : ∀ k, t ≤ k ↔ s ≤ 3 * k + a := by intro k; omega
  have hmod : X0 % 2 ^ t = 0 := by
    apply Nat.eq_of_testBit_eq
    intro i
    rw [Nat.testBit_mod_two_pow, hX i, Nat.zero_testBit]
    by_cases hi : i < t
    · have : ¬ s ≤ 3 * i + a := by rw [← hkt]; omega
      simp [this]
    · simp [hi]
  have hdiv : (X0 ≤ x ∧ x < X0 + 2 ^ t) ↔ x >>> t = X0 >>> t := by
    rw [Nat.shiftRight_eq_div_pow, Nat.shiftRight_eq_div_pow]
    have hp : 0 < 2 ^ t := Nat.two_pow_pos t
    obtain ⟨q, rfl⟩ : ∃ q, X0 = 2 ^ t * q := ⟨X0 / 2 ^ t, by have := Nat.div_add_mod X0 (2 ^ t); omega⟩
    rw [Nat.mul_div_cancel_left _ hp]
    constructor
    · rintro ⟨h1, h2⟩
      apply Nat.div_eq_of_lt_le
      · rw [Nat.mul_comm]; exact h1
      · rw [Nat.mul_comm, Nat.mul_add, Nat.mul_one]; exact h2
    · intro h
      have := Nat.div_add_mod x (2 ^ t)
      have := Nat.mod_lt x hp
      rw [h] at *
      constructor <;> omega
  rw [hdiv]
  constructor
  · intro h k hk
    have hk' := (hkt k).2 hk
    have := congrArg (fun n => n.testBit (k - t)) h
    simp only [Nat.testBit_shiftRight] at this
    rw [show t + (k - t) = k by omega, hX k] at this
    simpa [hk] using this
  · intro h
    apply Nat.eq_of_testBit_eq
    intro i
    rw [Nat.testBit_shiftRight, Nat.testBit_shiftRight, hX]
    have := (hkt (t + i)).1 (by omega)
    rw [h _ this]
    simp [this]

/-- The cell of prefix `m >>> s`: low corner `X Y Z`, sizes `2^((s+2-a)/3)`. -/
theorem cell_box {b m s X Y Z x y z code : Nat} (hm : m < 2 ^ (3 * b)) (hcode : IsMorton b code x y z) (hg : InGrid b x y z)
    (hX : ∀ k, X.testBit k = (decide (s ≤ 3 * k + 2) && m.testBit (3 * k + 2)))
    (hY : ∀ k, Y.testBit k = (decide (s ≤ 3 * k + 1) && m.testBit (3 * k + 1)))
    (hZ : ∀ k, Z.testBit k = (decide (s ≤ 3 * k + 0) && m.testBit (3 * k + 0))) :
    ((X ≤ x ∧ x < X + 2 ^ (s / 3)) ∧ (Y ≤ y ∧ y < Y + 2 ^ ((s + 1) / 3)) ∧ (Z ≤ z ∧ z < Z + 2 ^ ((s + 2) / 3))) ↔
      code >>> s = m >>> s := by
  rw [axis_box (by omega) (by omega) hX, axis_box (by omega) (by omega) hY, axis_box (by omega) (by omega) hZ]
  constructor
  · rintro ⟨h1, h2, h3⟩
    apply Nat.eq_of_testBit_eq
    intro i
    rw [Nat.testBit_shiftRight, Nat.testBit_shiftRight]
    generalize hj : s + i = j
    have hsj : s ≤ j := by omega
    by_cases hjb : j < 3 * b
    · obtain ⟨k, h | h | h⟩ : ∃ k, j = 3 * k + 2 ∨ j = 3 * k + 1 ∨ j = 3 * k := ⟨j / 3, by omega⟩
      · rw [h, isMorton_x hcode k (by omega)]; exact h1 k (by omega)
      · rw [h, isMorton_y hcode k (by omega)]; exact h2 k (by omega)
      · rw [h, isMorton_z hcode k (by omega)]; exact h3 k (by omega)
    · rw [Nat.testBit_lt_two_pow (lt_of_lt_of_le (isMorton_lt hcode) (Nat.pow_le_pow_right (by omega) (by omega))),
        Nat.testBit_lt_two_pow (lt_of_lt_of_le hm (Nat.pow_le_pow_right (by omega) (by omega)))]
  · intro h
    have key : ∀ j, s ≤ j → code.testBit j = m.testBit j := by
      intro j hj
      have := congrArg (fun n => n.testBit (j - s)) h
      simp only [Nat.testBit_shiftRight] at this
      rwa [show s + (j - s) = j by omega] at this
    have hi : ∀ {u : Nat} {a : Nat}, u < 2 ^ b → a < 3 → (∀ k < b, code.testBit (3 * k + a) = u.testBit k) →
        ∀ k, s ≤ 3 * k + a → u.testBit k = m.testBit (3 * k + a) := by
      intro u a hu ha hc k hk
      by_cases hkb : k < b
      · rw [← hc k hkb, key _ hk]
      · rw [Nat.testBit_lt_two_pow (lt_of_lt_of_le hu (Nat.pow_le_pow_right (by omega) (by omega))),
          Nat.testBit_lt_two_pow (lt_of_lt_of_le hm (Nat.pow_le_pow_right (by omega) (by omega)))]
    exact ⟨hi hg.1 (by omega) (isMorton_x hcode), hi hg.2.1 (by omega) (isMorton_y hcode), hi (a := 0) hg.2.2 (by omega) (isMorton_z hcode)⟩

theorem left_bits {m s a X : Nat} (hs : 0 < s) (hX : ∀ k, X.testBit k = (decide (s ≤ 3 * k + a) && m.testBit (3 * k + a))) (k : Nat) :
    X.testBit k = (decide (s - 1 ≤ 3 * k + a) && ((m >>> s) <<< s).testBit (3 * k + a)) := by
  rw [hX k, Nat.testBit_shiftLeft, Nat.testBit_shiftRight]
  by_cases h : s ≤ 3 * k + a
  · have h2 : s - 1 ≤ 3 * k + a := by omega
    rw [show s + (3 * k + a - s) = 3 * k + a by omega]
    simp [h, h2]
  · simp [h]

theorem right_bits {m s a X : Nat} (ha : a < 3) (hs : 0 < s)
    (hX : ∀ k, X.testBit k = (decide (s ≤ 3 * k + a) && m.testBit (3 * k + a))) (k : Nat) :
    (X + (2 ^ ((s + 2 - a) / 3) - 2 ^ ((s - 1 + 2 - a) / 3))).testBit k =
      (decide (s - 1 ≤ 3 * k + a) && ((m >>> s) <<< s ||| 2 ^ (s - 1)).testBit (3 * k + a)) := by
  have hl := left_bits hs hX
  rw [Nat.testBit_or, Nat.testBit_two_pow]
  by_cases hc : (s - 1) % 3 = a
  · have ht : (s + 2 - a) / 3 = (s - 1) / 3 + 1 := by omega
    have ht' : (s - 1 + 2 - a) / 3 = (s - 1) / 3 := by omega
    rw [ht, ht']
    generalize hq : (s - 1) / 3 = t
    rw [show 2 ^ (t + 1) - 2 ^ t = 2 ^ t by rw [Nat.pow_succ]; omega]
    have hmod : X % 2 ^ (t + 1) = 0 := by
      apply Nat.eq_of_testBit_eq
      intro i
      rw [Nat.testBit_mod_two_pow, hX i, Nat.zero_testBit]
      by_cases hi : i < t + 1
      · have : ¬ s ≤ 3 * i + a := by omega
        simp [this]
      · simp [hi]
    obtain ⟨q, hXq⟩ : ∃ q, X = 2 ^ (t + 1) * q := ⟨X / 2 ^ (t + 1), by have := Nat.div_add_mod X (2 ^ (t + 1)); omega⟩
    have hor : X + 2 ^ t = X ||| 2 ^ t := by
      rw [hXq]
      exact Nat.two_pow_add_eq_or_of_lt (by rw [Nat.pow_succ]; have := Nat.two_pow_pos t; omega) q
    rw [hor, Nat.testBit_or, hl k, Nat.testBit_two_pow]
    by_cases hk : k = t
    · subst hk
      have e : s - 1 = 3 * k + a := by omega
      simp [e]
    · have e1 : ¬ t = k := fun h => hk h.symm
      have e2 : ¬ (s - 1 = 3 * k + a) := by omega
      simp [e1, e2]
  · have ht : (s + 2 - a) / 3 = (s - 1 + 2 - a) / 3 := by omega
    rw [ht, Nat.sub_self, Nat.add_zero, hl k]
    have e2 : ¬ (s - 1 = 3 * k + a) := by omega
    simp [e2]

theorem shift_left_child (m s : Nat) (hs : 0 < s) : ((m >>> s) <<< s) >>> (s - 1) = 2 * (m >>> s) := by
  rw [Nat.shiftLeft_eq, Nat.shiftRight_eq_div_pow _ (s - 1)]
  obtain ⟨r, rfl⟩ : ∃ r, s = r + 1 := ⟨s - 1, by omega⟩
  rw [Nat.add_sub_cancel, Nat.pow_succ, ← Nat.mul_assoc, Nat.mul_right_comm, Nat.mul_div_cancel _ (Nat.two_pow_pos r)]
  omega

theorem shift_right_child (m s : Nat) (hs : 0 < s) : ((m >>> s) <<< s ||| 2 ^ (s - 1)) >>> (s - 1) = 2 * (m >>> s) + 1 := by
  rw [Nat.shiftRight_or_distrib, shift_left_child m s hs, Nat.shiftRight_eq_div_pow (2 ^ (s - 1)) (s - 1), Nat.div_self (Nat.two_pow_pos _)]
  have := Nat.two_pow_add_eq_or_of_lt (i := 1) (b := 1) (by omega) (m >>> s)
  rw [Nat.pow_one] at this
  exact this.symm

/-- Specification: half open box membership. -/
def InBox {w : Nat} (box : V3 (BitVec w) × V3 (BitVec w)) (x y z : Nat) : Prop :=
  (box.1.x.toNat ≤ x ∧ x < box.2.x.toNat) ∧ (box.1.y.toNat ≤ y ∧ y < box.2.y.toNat) ∧ (box.1.z.toNat ≤ z ∧ z < box.2.z.toNat)

/-- The boxes from low corner and sizes, provided nothing overflows. -/
theorem cellBoxes_spec {w b m s : Nat} (mn off off1 : V3 (BitVec w)) (hw : b + 2 ≤ w) (hm : m < 2 ^ (3 * b)) (hs : 0 < s)
    (hs2 : s ≤ 3 * b)
    (hX : ∀ k, mn.x.toNat.testBit k = (decide (s ≤ 3 * k + 2) && m.testBit (3 * k + 2)))
    (hY : ∀ k, mn.y.toNat.testBit k = (decide (s ≤ 3 * k + 1) && m.testBit (3 * k + 1)))
    (hZ : ∀ k, mn.z.toNat.testBit k = (decide (s ≤ 3 * k + 0) && m.testBit (3 * k + 0)))
    (ho : off.x.toNat = 2 ^ (s / 3) ∧ off.y.toNat = 2 ^ ((s + 1) / 3) ∧ off.z.toNat = 2 ^ ((s + 2) / 3))
    (ho1 : off1.x.toNat = 2 ^ ((s - 1) / 3) ∧ off1.y.toNat = 2 ^ (s / 3) ∧ off1.z.toNat = 2 ^ ((s + 1) / 3))
    {x y z code : Nat} (hcode : IsMorton b code x y z) (hg : InGrid b x y z) :
    (InBox (cellBoxesOf mn off off1).node x y z ↔ code >>> s = m >>> s) ∧
    (InBox (cellBoxesOf mn off off1).left x y z ↔ code >>> (s - 1) = 2 * (m >>> s)) ∧
    (InBox (cellBoxesOf mn off off1).right x y z ↔ code >>> (s - 1) = 2 * (m >>> s) + 1) := by
  have hlt : ∀ {X a : Nat}, (∀ k, X.testBit k = (decide (s ≤ 3 * k + a) && m.testBit (3 * k + a))) → X < 2 ^ b := by
    intro X a h
    apply Nat.lt_pow_two_of_testBit
    intro i hi
    rw [h i, Nat.testBit_lt_two_pow (lt_of_lt_of_le hm (Nat.pow_le_pow_right (by omega) (by omega)))]
    simp
  have lx := hlt hX
  have ly := hlt hY
  have lz := hlt hZ
  have hpw : 4 * 2 ^ b ≤ 2 ^ w := by
    have : 2 ^ (b + 2) ≤ 2 ^ w := Nat.pow_le_pow_right (by omega) hw
    rw [Nat.pow_add] at this; omega
  have hpl : ∀ e, e ≤ b → 2 ^ e ≤ 2 ^ b := fun e he => Nat.pow_le_pow_right (by omega) he
  have px := hpl (s / 3) (by omega)
  have py := hpl ((s + 1) / 3) (by omega)
  have pz := hpl ((s + 2) / 3) (by omega)
  have px1 := hpl ((s - 1) / 3) (by omega)
  have mx : 2 ^ ((s - 1) / 3) ≤ 2 ^ (s / 3) := Nat.pow_le_pow_right (by omega) (by omega)
  have my : 2 ^ (s / 3) ≤ 2 ^ ((s + 1) / 3) := Nat.pow_le_pow_right (by omega) (by omega)
  have mz : 2 ^ ((s + 1) / 3) ≤ 2 ^ ((s + 2) / 3) := Nat.pow_le_pow_right (by omega) (by omega)
  obtain ⟨ox, oy, oz⟩ := ho
  obtain ⟨ox1, oy1, oz1⟩ := ho1
  have hmc : m >>> s <<< s < 2 ^ (3 * b) := by
    rw [Nat.shiftLeft_eq, Nat.shiftRight_eq_div_pow]
    exact lt_of_le_of_lt (Nat.div_mul_le_self _ _) hm
  have hmc1 : m >>> s <<< s ||| 2 ^ (s - 1) < 2 ^ (3 * b) :=
    Nat.or_lt_two_pow hmc (Nat.pow_lt_pow_right (by omega) (by omega))
  -- additions and subtractions do not wrap
  have add_nw : ∀ (a c : BitVec w), a.toNat + c.toNat < 2 ^ w → (a + c).toNat = a.toNat + c.toNat := by
    intro a c h; rw [BitVec.toNat_add, Nat.mod_eq_of_lt h]
  have sub_nw : ∀ (a c : BitVec w), c.toNat ≤ a.toNat → (a - c).toNat = a.toNat - c.toNat := by
    intro a c h; rw [BitVec.toNat_sub_of_le (BitVec.le_def.2 h)]
  have sx := sub_nw off.x off1.x (by omega)
  have sy := sub_nw off.y off1.y (by omega)
  have sz := sub_nw off.z off1.z (by omega)
  have nx := add_nw off.x mn.x (by omega)
  have ny := add_nw off.y mn.y (by omega)
  have nz := add_nw off.z mn.z (by omega)
  have nx1 := add_nw off1.x mn.x (by omega)
  have ny1 := add_nw off1.y mn.y (by omega)
  have nz1 := add_nw off1.z mn.z (by omega)
  have rx := add_nw mn.x (off.x - off1.x) (by omega)
  have ry := add_nw mn.y (off.y - off1.y) (by omega)
  have rz := add_nw mn.z (off.z - off1.z) (by omega)
  have qx := add_nw (off1.x + mn.x) (off.x - off1.x) (by omega)
  have qy := add_nw (off1.y + mn.y) (off.y - off1.y) (by omega)
  have qz := add_nw (off1.z + mn.z) (off.z - off1.z) (by omega)
  refine ⟨?_, ?_, ?_⟩
  · rw [← cell_box hm hcode hg hX hY hZ]
    simp only [InBox, cellBoxesOf, V3.vadd]
    rw [nx, ny, nz, ox, oy, oz, Nat.add_comm (2 ^ _), Nat.add_comm (2 ^ ((s + 1) / 3)), Nat.add_comm (2 ^ ((s + 2) / 3))]
  · rw [← shift_left_child m s hs, ← cell_box hmc hcode hg (left_bits hs hX) (left_bits hs hY) (left_bits hs hZ)]
    simp only [InBox, cellBoxesOf, V3.vadd]
    rw [nx1, ny1, nz1, ox1, oy1, oz1, show s - 1 + 1 = s by omega, show s - 1 + 2 = s + 1 by omega,
      Nat.add_comm (2 ^ _), Nat.add_comm (2 ^ (s / 3)), Nat.add_comm (2 ^ ((s + 1) / 3))]
  · have RX := right_bits (by omega) hs hX
    have RY := right_bits (by omega) hs hY
    have RZ := right_bits (by omega) hs hZ
    rw [← shift_right_child m s hs, ← cell_box hmc1 hcode hg RX RY RZ]
    simp only [InBox, cellBoxesOf, V3.vadd, V3.vsub]
    rw [rx, ry, rz, qx, qy, qz, nx1, ny1, nz1, sx, sy, sz, ox, oy, oz, ox1, oy1, oz1]
    rw [show (s + 2 - 2) / 3 = s / 3 by omega, show (s - 1 + 2 - 2) / 3 = (s - 1) / 3 by omega,
      show (s + 2 - 1) / 3 = (s + 1) / 3 by omega, show (s - 1 + 2 - 1) / 3 = s / 3 by omega,
      show (s + 2 - 0) / 3 = (s + 2) / 3 by omega, show (s - 1 + 2 - 0) / 3 = (s + 1) / 3 by omega,
      show s - 1 + 1 = s by omega, show s - 1 + 2 = s + 1 by omega]
    generalize 2 ^ ((s - 1) / 3) = A at *
    generalize 2 ^ (s / 3) = B at *
    generalize 2 ^ ((s + 1) / 3) = C at *
    generalize 2 ^ ((s + 2) / 3) = D at *
    constructor <;> rintro ⟨⟨h1, h2⟩, ⟨h3, h4⟩, ⟨h5, h6⟩⟩ <;> refine ⟨⟨?_, ?_⟩, ⟨?_, ?_⟩, ⟨?_, ?_⟩⟩ <;> omega

/-- The longest common prefix found by `clz_xor`: `s = w - clz` low bits are free, bit `s-1` differs. -/
theorem clz_prefix {w n : Nat} (m0 m1 : BitVec w) (h0 : m0.toNat < 2 ^ n) (h1 : m1.toNat < 2 ^ n) (hn : n < w) (hne : m0 ≠ m1) :
    ∃ s, 0 < s ∧ s ≤ n ∧ clz (m0 ^^^ m1) = w - s ∧ m0.toNat >>> s = m1.toNat >>> s ∧
      m0.toNat.testBit (s - 1) ≠ m1.toNat.testBit (s - 1) := by
  have hv : (m0 ^^^ m1).toNat = m0.toNat ^^^ m1.toNat := BitVec.toNat_xor ..
  have hvne : m0.toNat ^^^ m1.toNat ≠ 0 := by
    intro h
    rw [Nat.xor_eq_zero_iff] at h
    exact hne (BitVec.eq_of_toNat_eq h)
  have hvlt : m0.toNat ^^^ m1.toNat < 2 ^ n := Nat.xor_lt_two_pow h0 h1
  have hlog : (m0.toNat ^^^ m1.toNat).log2 < n := (Nat.log2_lt hvne).2 hvlt
  refine ⟨(m0.toNat ^^^ m1.toNat).log2 + 1, by omega, by omega, ?_, ?_, ?_⟩
  · unfold clz
    rw [hv, if_neg hvne]; omega
  · apply Nat.eq_of_testBit_eq
    intro i
    rw [Nat.testBit_shiftRight, Nat.testBit_shiftRight]
    have : (m0.toNat ^^^ m1.toNat).testBit ((m0.toNat ^^^ m1.toNat).log2 + 1 + i) = false :=
      Nat.testBit_lt_two_pow (lt_of_lt_of_le Nat.lt_log2_self (Nat.pow_le_pow_right (by omega) (by omega)))
    rw [Nat.testBit_xor] at this
    revert this
    cases m0.toNat.testBit _ <;> cases m1.toNat.testBit _ <;> simp
  · have := Nat.testBit_log2 hvne
    rw [Nat.testBit_xor] at this
    rw [Nat.add_sub_cancel]
    intro h
    rw [h] at this
    simp at this

theorem mask_bits {w s : Nat} (m : BitVec w) (hs : s ≤ w) (j : Nat) :
    (m &&& (BitVec.allOnes w <<< s)).toNat.testBit j = (decide (s ≤ j) && m.toNat.testBit j) := by
  show (m &&& (BitVec.allOnes w <<< s)).getLsbD j = (decide (s ≤ j) && m.getLsbD j)
  rw [BitVec.getLsbD_and, BitVec.getLsbD_shiftLeft, BitVec.getLsbD_allOnes]
  by_cases hj : j < w
  · by_cases h : s ≤ j
    · have h1 : ¬ j < s := by omega
      have h2 : j - s < w := by omega
      simp [hj, h, h1, h2]
    · have h1 : j < s := by omega
      simp [h, h1]
  · rw [BitVec.getLsbD_of_ge m j (by omega)]; simp

theorem offset64_ok : ∀ c < 65, 1 ≤ c → getOffset64 c = some
    ⟨BitVec.ofNat 32 (2 ^ ((64 - c) / 3)), BitVec.ofNat 32 (2 ^ ((65 - c) / 3)), BitVec.ofNat 32 (2 ^ ((66 - c) / 3))⟩ := by decide +kernel

theorem offset32_ok : ∀ c < 33, 2 ≤ c → getOffset32 c = some
    ⟨BitVec.ofNat 16 (2 ^ ((32 - c) / 3)), BitVec.ofNat 16 (2 ^ ((33 - c) / 3)), BitVec.ofNat 16 (2 ^ ((34 - c) / 3))⟩ := by decide +kernel

/-- C04 for 64 bit codes: given the two end codes of a node, the kernel finds their longest common prefix (`s` free low bits), and
the boxes it computes for the node, its left half and its right half contain exactly the grid positions whose code starts with
this prefix, the prefix followed by 0, the prefix followed by 1. -/
theorem C04_cell_boxes64 (m0 m1 : BitVec 64) (h0 : m0.toNat < 2 ^ 63) (h1 : m1.toNat < 2 ^ 63) (hne : m0 ≠ m1) :
    ∃ s boxes, cellRanges64 m0 m1 = some boxes ∧ 0 < s ∧ s ≤ 63 ∧ m0.toNat >>> s = m1.toNat >>> s ∧
      m0.toNat.testBit (s - 1) ≠ m1.toNat.testBit (s - 1) ∧
      ∀ c : V3 (BitVec 64), InGrid 21 c.x.toNat c.y.toNat c.z.toNat →
        (InBox boxes.node c.x.toNat c.y.toNat c.z.toNat ↔ (morton64 c).toNat >>> s = m0.toNat >>> s) ∧
        (InBox boxes.left c.x.toNat c.y.toNat c.z.toNat ↔ (morton64 c).toNat >>> (s - 1) = 2 * (m0.toNat >>> s)) ∧
        (InBox boxes.right c.x.toNat c.y.toNat c.z.toNat ↔ (morton64 c).toNat >>> (s - 1) = 2 * (m0.toNat >>> s) + 1) := by
  obtain ⟨s, hs0, hs1, hc, he, hd⟩ := clz_prefix m0 m1 h0 h1 (by omega) hne
  have o0 := offset64_ok (64 - s) (by omega) (by omega)
  have o1 := offset64_ok (64 - s + 1) (by omega) (by omega)
  have hmask : getMask 64 (64 - s) = some (BitVec.allOnes 64 <<< s) := by
    unfold getMask
    rw [if_neg (by omega), show 64 - (64 - s) = s by omega]
  refine ⟨s, _, by unfold cellRanges64; rw [hc]; simp only [hmask, o0, o1]; rfl, hs0, hs1, he, hd, ?_⟩
  intro c hg
  have hb := icoord64_bits (m0 &&& BitVec.allOnes 64 <<< s)
  have pick : ∀ a k, a < 3 → (decide (k < 21) && (m0 &&& BitVec.allOnes 64 <<< s).toNat.testBit (3 * k + a)) =
      (decide (s ≤ 3 * k + a) && m0.toNat.testBit (3 * k + a)) := by
    intro a k ha
    rw [mask_bits m0 (by omega)]
    by_cases hk : k < 21
    · simp [hk]
    · rw [Nat.testBit_lt_two_pow (lt_of_lt_of_le h0 (Nat.pow_le_pow_right (by omega) (by omega)))]; simp
  have pw : ∀ e, e ≤ 21 → (BitVec.ofNat 32 (2 ^ e)).toNat = 2 ^ e := by
    intro e he
    rw [BitVec.toNat_ofNat]
    exact Nat.mod_eq_of_lt (Nat.pow_lt_pow_right (by omega) (by omega))
  refine cellBoxes_spec (b := 21) _ _ _ (by omega) (by omega) hs0 (by omega) ?_ ?_ ?_ ?_ ?_ (C01_morton64_bits c) hg
  · intro k; rw [(hb k).1, pick 2 k (by omega)]
  · intro k; rw [(hb k).2.1, pick 1 k (by omega)]
  · intro k; rw [(hb k).2.2, pick 0 k (by omega)]
  · refine ⟨?_, ?_, ?_⟩
    · show (BitVec.ofNat 32 (2 ^ _)).toNat = _
      rw [pw _ (by omega), show 64 - (64 - s) = s by omega]
    · show (BitVec.ofNat 32 (2 ^ _)).toNat = _
      rw [pw _ (by omega), show 65 - (64 - s) = s + 1 by omega]
    · show (BitVec.ofNat 32 (2 ^ _)).toNat = _
      rw [pw _ (by omega), show 66 - (64 - s) = s + 2 by omega]
  · refine ⟨?_, ?_, ?_⟩
    · show (BitVec.ofNat 32 (2 ^ _)).toNat = _
      rw [pw _ (by omega), show 64 - (64 - s + 1) = s - 1 by omega]
    · show (BitVec.ofNat 32 (2 ^ _)).toNat = _
      rw [pw _ (by omega), show 65 - (64 - s + 1) = s by omega]
    · show (BitVec.ofNat 32 (2 ^ _)).toNat = _
      rw [pw _ (by omega), show 66 - (64 - s + 1) = s + 1 by omega]

/-- C04 for 32 bit codes. -/
theorem C04_cell_boxes32 (m0 m1 : BitVec 32) (h0 : m0.toNat < 2 ^ 30) (h1 : m1.toNat < 2 ^ 30) (hne : m0 ≠ m1) :
    ∃ s boxes, cellRanges32 m0 m1 = some boxes ∧ 0 < s ∧ s ≤ 30 ∧ m0.toNat >>> s = m1.toNat >>> s ∧
      m0.toNat.testBit (s - 1) ≠ m1.toNat.testBit (s - 1) ∧
      ∀ c : V3 (BitVec 32), InGrid 10 c.x.toNat c.y.toNat c.z.toNat →
        (InBox boxes.node c.x.toNat c.y.toNat c.z.toNat ↔ (morton32 c).toNat >>> s = m0.toNat >>> s) ∧
        (InBox boxes.left c.x.toNat c.y.toNat c.z.toNat ↔ (morton32 c).toNat >>> (s - 1) = 2 * (m0.toNat >>> s)) ∧
        (InBox boxes.right c.x.toNat c.y.toNat c.z.toNat ↔ (morton32 c).toNat >>> (s - 1) = 2 * (m0.toNat >>> s) + 1) := by
  obtain ⟨s, hs0, hs1, hc, he, hd⟩ := clz_prefix m0 m1 h0 h1 (by omega) hne
  have o0 := offset32_ok (32 - s) (by omega) (by omega)
  have o1 := offset32_ok (32 - s + 1) (by omega) (by omega)
  have hmask : getMask 32 (32 - s) = some (BitVec.allOnes 32 <<< s) := by
    unfold getMask
    rw [if_neg (by omega), show 32 - (32 - s) = s by omega]
  refine ⟨s, _, by unfold cellRanges32; rw [hc]; simp only [hmask, o0, o1]; rfl, hs0, hs1, he, hd, ?_⟩
  intro c hg
  have hb := icoord32_bits (m0 &&& BitVec.allOnes 32 <<< s)
  have pick : ∀ a k, a < 3 → (decide (k < 10) && (m0 &&& BitVec.allOnes 32 <<< s).toNat.testBit (3 * k + a)) =
      (decide (s ≤ 3 * k + a) && m0.toNat.testBit (3 * k + a)) := by
    intro a k ha
    rw [mask_bits m0 (by omega)]
    by_cases hk : k < 10
    · simp [hk]
    · rw [Nat.testBit_lt_two_pow (lt_of_lt_of_le h0 (Nat.pow_le_pow_right (by omega) (by omega)))]; simp
  have pw : ∀ e, e ≤ 10 → (BitVec.ofNat 16 (2 ^ e)).toNat = 2 ^ e := by
    intro e he
    rw [BitVec.toNat_ofNat]
    exact Nat.mod_eq_of_lt (Nat.pow_lt_pow_right (by omega) (by omega))
  refine cellBoxes_spec (b := 10) _ _ _ (by omega) (by omega) hs0 (by omega) ?_ ?_ ?_ ?_ ?_ (C01_morton32_bits c) hg
  · intro k; rw [(hb k).1, pick 2 k (by omega)]
  · intro k; rw [(hb k).2.1, pick 1 k (by omega)]
  · intro k; rw [(hb k).2.2, pick 0 k (by omega)]
  · refine ⟨?_, ?_, ?_⟩
    · show (BitVec.ofNat 16 (2 ^ _)).toNat = _
      rw [pw _ (by omega), show 32 - (32 - s) = s by omega]
    · show (BitVec.ofNat 16 (2 ^ _)).toNat = _
      rw [pw _ (by omega), show 33 - (32 - s) = s + 1 by omega]
    · show (BitVec.ofNat 16 (2 ^ _)).toNat = _
      rw [pw _ (by omega), show 34 - (32 - s) = s + 2 by omega]
  · refine ⟨?_, ?_, ?_⟩
    · show (BitVec.ofNat 16 (2 ^ _)).toNat = _
      rw [pw _ (by omega), show 32 - (32 - s + 1) = s - 1 by omega]
    · show (BitVec.ofNat 16 (2 ^ _)).toNat = _
      rw [pw _ (by omega), show 33 - (32 - s + 1) = s by omega]
    · show (BitVec.ofNat 16 (2 ^ _)).toNat = _
      rw [pw _ (by omega), show 34 - (32 - s + 1) = s + 1 by omega]

theorem prefix_between {a b c s : Nat} (h : a >>> s = b >>> s) (h1 : min a b ≤ c) (h2 : c ≤ max a b) : c >>> s = a >>> s := by
  rw [Nat.shiftRight_eq_div_pow, Nat.shiftRight_eq_div_pow] at *
  rcases le_total a b with hab | hab
  · rw [min_eq_left hab] at h1; rw [max_eq_right hab] at h2
    exact le_antisymm (h ▸ Nat.div_le_div_right h2) (Nat.div_le_div_right h1)
  · rw [min_eq_right hab] at h1; rw [max_eq_left hab] at h2
    exact le_antisymm (Nat.div_le_div_right h2) (h ▸ Nat.div_le_div_right h1)

/-- C04: the position of every code between the two end codes of a node is inside the box of the node. -/
theorem C04_node_contains64 (m0 m1 : BitVec 64) (h0 : m0.toNat < 2 ^ 63) (h1 : m1.toNat < 2 ^ 63) (hne : m0 ≠ m1)
    (c : V3 (BitVec 64)) (hg : InGrid 21 c.x.toNat c.y.toNat c.z.toNat)
    (hlo : min m0.toNat m1.toNat ≤ (morton64 c).toNat) (hhi : (morton64 c).toNat ≤ max m0.toNat m1.toNat) :
    ∃ boxes, cellRanges64 m0 m1 = some boxes ∧ InBox boxes.node c.x.toNat c.y.toNat c.z.toNat := by
  obtain ⟨s, boxes, a1, _, _, a4, _, a6⟩ := C04_cell_boxes64 m0 m1 h0 h1 hne
  exact ⟨boxes, a1, (a6 c hg).1.2 (prefix_between a4 hlo hhi)⟩

/-- C04: the same for 32 bit codes. -/
theorem C04_node_contains32 (m0 m1 : BitVec 32) (h0 : m0.toNat < 2 ^ 30) (h1 : m1.toNat < 2 ^ 30) (hne : m0 ≠ m1)
    (c : V3 (BitVec 32)) (hg : InGrid 10 c.x.toNat c.y.toNat c.z.toNat)
    (hlo : min m0.toNat m1.toNat ≤ (morton32 c).toNat) (hhi : (morton32 c).toNat ≤ max m0.toNat m1.toNat) :
    ∃ boxes, cellRanges32 m0 m1 = some boxes ∧ InBox boxes.node c.x.toNat c.y.toNat c.z.toNat := by
  obtain ⟨s, boxes, a1, _, _, a4, _, a6⟩ := C04_cell_boxes32 m0 m1 h0 h1 hne
  exact ⟨boxes, a1, (a6 c hg).1.2 (prefix_between a4 hlo hhi)⟩

/-- The codes `0b010_110` and `0b011_001` share the prefix `0b01`: cell `x = [0,2), y = [2,4), z = [0,4)`. -/
example : cellRanges64 0b010110#64 0b011001#64 = some
    { node := (⟨0, 2, 0⟩, ⟨2, 4, 4⟩), left := (⟨0, 2, 0⟩, ⟨2, 4, 2⟩), right := (⟨0, 2, 2⟩, ⟨2, 4, 4⟩) } := by decide +kernel

end Shamrock
