import Verif.Proof.Hilbert
/-! C03, C49: the 3D Hilbert index. -/
namespace Shamrock

/-! ### Symmetries of the octants -/

theorem hT_surj (b : Nat) (a : V3 Bool) (q : V3 Nat) (h : hIn b q) : ∃ p, hIn b p ∧ hT b a p = q := by
  obtain ⟨x, y, z⟩ := q
  obtain ⟨a0, a1, a2⟩ := a
  unfold hIn at h
  simp only at h
  -- each elementary step is an involution
  refine ⟨hT0 b a0 (hT1 b a1 (hT2 b a2 ⟨x, y, z⟩)), ?_, ?_⟩
  · unfold hIn hT0 hT1 hT2
    generalize 2 ^ b = B at *
    cases a0 <;> cases a1 <;> cases a2 <;> simp only [if_true, Bool.false_eq_true, if_false] <;> omega
  · unfold hT hT0 hT1 hT2
    generalize 2 ^ b = B at *
    cases a0 <;> cases a1 <;> cases a2 <;> simp only [if_true, Bool.false_eq_true, if_false, V3.mk.injEq, and_self, and_true, true_and] <;> omega

theorem hT_inj (b : Nat) (a : V3 Bool) (p q : V3 Nat) (hp : hIn b p) (hq : hIn b q) (h : hT b a p = hT b a q) : p = q := by
  obtain ⟨x, y, z⟩ := p
  obtain ⟨x', y', z'⟩ := q
  obtain ⟨a0, a1, a2⟩ := a
  unfold hIn at hp hq
  unfold hT hT0 hT1 hT2 at h
  simp only at hp hq
  generalize 2 ^ b = B at *
  cases a0 <;> cases a1 <;> cases a2 <;> simp only [if_true, Bool.false_eq_true, if_false, V3.mk.injEq] at h ⊢ <;> omega

theorem hDigit_inj (s : Bool) (a a' : V3 Bool) (h : hDigit s a = hDigit s a') : a = a' := by
  obtain ⟨a0, a1, a2⟩ := a
  obtain ⟨a0', a1', a2'⟩ := a'
  revert h
  cases s <;> cases a0 <;> cases a1 <;> cases a2 <;> cases a0' <;> cases a1' <;> cases a2' <;> decide

theorem hDigit_surj (s : Bool) (d : Nat) (h : d < 8) : ∃ a, hDigit s a = d := by
  cases s <;> interval_cases d
  · exact ⟨⟨false, false, false⟩, rfl⟩
  · exact ⟨⟨false, false, true⟩, rfl⟩
  · exact ⟨⟨false, true, true⟩, rfl⟩
  · exact ⟨⟨false, true, false⟩, rfl⟩
  · exact ⟨⟨true, true, false⟩, rfl⟩
  · exact ⟨⟨true, true, true⟩, rfl⟩
  · exact ⟨⟨true, false, true⟩, rfl⟩
  · exact ⟨⟨true, false, false⟩, rfl⟩
  · exact ⟨⟨true, false, false⟩, rfl⟩
  · exact ⟨⟨true, false, true⟩, rfl⟩
  · exact ⟨⟨true, true, true⟩, rfl⟩
  · exact ⟨⟨true, true, false⟩, rfl⟩
  · exact ⟨⟨false, true, false⟩, rfl⟩
  · exact ⟨⟨false, true, true⟩, rfl⟩
  · exact ⟨⟨false, false, true⟩, rfl⟩
  · exact ⟨⟨false, false, false⟩, rfl⟩

/-- A point of the cube of side `2^(b+1)` is its octant and its position inside it. -/
theorem oct_low (b x : Nat) (h : x < 2 ^ (b + 1)) : x = 2 ^ b * (x.testBit b).toNat + x % 2 ^ b := by
  rw [Nat.pow_succ] at h
  have h2 : x / 2 ^ b < 2 := Nat.div_lt_of_lt_mul (by omega)
  have e : (x.testBit b).toNat = x / 2 ^ b := by
    rw [← testBit_div, Nat.testBit_zero]
    generalize x / 2 ^ b = q at h2 ⊢
    rcases (by omega : q = 0 ∨ q = 1) with e | e <;> rw [e] <;> rfl
  rw [e, Nat.div_add_mod]

theorem digit_split {B d d' l l' : Nat} (hl : l < B) (hl' : l' < B) (h : d * B + l = d' * B + l') : d = d' ∧ l = l' := by
  have hB : 0 < B := by omega
  have h1 : (d * B + l) / B = (d' * B + l') / B := by rw [h]
  rw [Nat.mul_comm d, Nat.mul_comm d', Nat.mul_add_div hB, Nat.mul_add_div hB, Nat.div_eq_of_lt hl, Nat.div_eq_of_lt hl', Nat.add_zero, Nat.add_zero] at h1
  subst h1
  exact ⟨rfl, by omega⟩

theorem hIdx_inj (b : Nat) : ∀ s p q, hIn b p → hIn b q → hIdx b s p = hIdx b s q → p = q := by
  induction b with
  | zero =>
    rintro s ⟨x, y, z⟩ ⟨x', y', z'⟩ ⟨h1, h2, h3⟩ ⟨g1, g2, g3⟩ _
    simp only [Nat.pow_zero, Nat.lt_one_iff] at *
    simp only [V3.mk.injEq]; omega
  | succ b ih =>
    intro s p q hp hq h
    simp only [hIdx] at h
    obtain ⟨h1, h2⟩ := digit_split (hIdx_lt b _ _) (hIdx_lt b _ _) h
    have ho := hDigit_inj s _ _ h1
    rw [← ho] at h2
    have h3 := ih _ _ _ (hT_in b _ _ (hLow_in b p)) (hT_in b _ _ (hLow_in b q)) h2
    have h4 := hT_inj b _ _ _ (hLow_in b p) (hLow_in b q) h3
    obtain ⟨x, y, z⟩ := p
    obtain ⟨x', y', z'⟩ := q
    obtain ⟨p1, p2, p3⟩ := hp
    obtain ⟨q1, q2, q3⟩ := hq
    simp only [hOct, hLow, V3.mk.injEq] at ho h4 ⊢
    obtain ⟨o1, o2, o3⟩ := ho
    obtain ⟨l1, l2, l3⟩ := h4
    refine ⟨?_, ?_, ?_⟩
    · rw [oct_low b x p1, oct_low b x' q1, o1, l1]
    · rw [oct_low b y p2, oct_low b y' q2, o2, l2]
    · rw [oct_low b z p3, oct_low b z' q3, o3, l3]

theorem cat_lt (b : Nat) (c : Bool) (l : Nat) (h : l < 2 ^ b) : 2 ^ b * c.toNat + l < 2 ^ (b + 1) := by
  rw [Nat.pow_succ]; cases c <;> simp <;> omega

theorem hIdx_surj (b : Nat) : ∀ s h, h < 8 ^ b → ∃ p, hIn b p ∧ hIdx b s p = h := by
  induction b with
  | zero => intro s h hh; exact ⟨⟨0, 0, 0⟩, ⟨by simp, by simp, by simp⟩, by simp at hh; simp [hIdx, hh]⟩
  | succ b ih =>
    intro s h hh
    have hB := Nat.pow_pos (n := b) (show 0 < 8 by omega)
    rw [Nat.pow_succ] at hh
    obtain ⟨a, ha⟩ := hDigit_surj s (h / 8 ^ b) (Nat.div_lt_of_lt_mul (by omega))
    obtain ⟨q, hq, hq2⟩ := ih (s ^^ (a.x ^^ a.y ^^ a.z)) (h % 8 ^ b) (Nat.mod_lt _ hB)
    obtain ⟨l, hl, hl2⟩ := hT_surj b a q hq
    have hoct : hOct b ⟨2 ^ b * a.x.toNat + l.x, 2 ^ b * a.y.toNat + l.y, 2 ^ b * a.z.toNat + l.z⟩ = a := by
      obtain ⟨a0, a1, a2⟩ := a
      simp only [hOct, testBit_cat b _ _ hl.1, testBit_cat b _ _ hl.2.1, testBit_cat b _ _ hl.2.2, V3.mk.injEq]
      cases a0 <;> cases a1 <;> cases a2 <;> decide
    have hlow : hLow b ⟨2 ^ b * a.x.toNat + l.x, 2 ^ b * a.y.toNat + l.y, 2 ^ b * a.z.toNat + l.z⟩ = l := by
      obtain ⟨l1, l2, l3⟩ := l
      obtain ⟨g1, g2, g3⟩ := hl
      simp only [hLow, Nat.mul_add_mod, V3.mk.injEq]
      exact ⟨Nat.mod_eq_of_lt g1, Nat.mod_eq_of_lt g2, Nat.mod_eq_of_lt g3⟩
    refine ⟨⟨2 ^ b * a.x.toNat + l.x, 2 ^ b * a.y.toNat + l.y, 2 ^ b * a.z.toNat + l.z⟩,
      ⟨cat_lt b _ _ hl.1, cat_lt b _ _ hl.2.1, cat_lt b _ _ hl.2.2⟩, ?_⟩
    simp only [hIdx]
    rw [hoct, hlow, hl2, hq2, ha, Nat.mul_comm, Nat.div_add_mod]

/-! ### Ends of the curve and continuity -/

/-- First point of the curve run forwards, last point of the curve run backwards; and the other end. -/
def hEnd (b : Nat) (s : Bool) : V3 Nat := if s then ⟨2 ^ b - 1, 0, 0⟩ else ⟨0, 0, 0⟩

theorem hFirst (b : Nat) (s : Bool) (a : V3 Bool) (l : V3 Nat) (hl : hIn b l) (hd : hDigit s a = 0)
    (h1 : hT b a l = hEnd b (s ^^ (a.x ^^ a.y ^^ a.z))) :
    (⟨2 ^ b * a.x.toNat + l.x, 2 ^ b * a.y.toNat + l.y, 2 ^ b * a.z.toNat + l.z⟩ : V3 Nat) = hEnd (b + 1) s := by
  obtain ⟨a0, a1, a2⟩ := a
  obtain ⟨lx, ly, lz⟩ := l
  obtain ⟨l1, l2, l3⟩ := hl
  simp only at l1 l2 l3
  unfold hT hT0 hT1 hT2 hEnd at h1
  unfold hEnd
  rw [Nat.pow_succ]
  generalize 2 ^ b = B at *
  cases s <;> cases a0 <;> cases a1 <;> cases a2 <;> first
    | (exfalso; revert hd; decide)
    | (simp at h1 ⊢; omega)

theorem hIdx_first (b : Nat) : ∀ s p, hIn b p → hIdx b s p = 0 → p = hEnd b s := by
  induction b with
  | zero =>
    rintro s ⟨x, y, z⟩ ⟨h1, h2, h3⟩ _
    simp only [Nat.pow_zero, Nat.lt_one_iff] at *
    subst h1; subst h2; subst h3
    cases s <;> rfl
  | succ b ih =>
    intro s p hp h
    simp only [hIdx] at h
    have hB := Nat.pow_pos (n := b) (show 0 < 8 by omega)
    have hd : hDigit s (hOct b p) = 0 := by
      rcases Nat.eq_zero_or_pos (hDigit s (hOct b p)) with h0 | h0
      · exact h0
      · have := Nat.mul_le_mul_right (8 ^ b) h0; omega
    rw [hd, Nat.zero_mul, Nat.zero_add] at h
    have hz := ih _ _ (hT_in b _ _ (hLow_in b p)) h
    have := hFirst b s _ _ (hLow_in b p) hd hz
    obtain ⟨x, y, z⟩ := p
    simp only [hOct, hLow] at this
    rw [← oct_low b x hp.1, ← oct_low b y hp.2.1, ← oct_low b z hp.2.2] at this
    exact this

theorem hIdx_rev (b : Nat) : ∀ s p, hIdx b s p + hIdx b (!s) p = 8 ^ b - 1 := by
  induction b with
  | zero => intro s p; simp [hIdx]
  | succ b ih =>
    intro s p
    simp only [hIdx]
    have h1 := ih (s ^^ ((hOct b p).x ^^ (hOct b p).y ^^ (hOct b p).z)) (hT b (hOct b p) (hLow b p))
    have h2 : (!s ^^ ((hOct b p).x ^^ (hOct b p).y ^^ (hOct b p).z)) = !(s ^^ ((hOct b p).x ^^ (hOct b p).y ^^ (hOct b p).z)) := by
      cases s <;> cases ((hOct b p).x ^^ (hOct b p).y ^^ (hOct b p).z) <;> rfl
    rw [h2]
    have h3 : hDigit s (hOct b p) + hDigit (!s) (hOct b p) = 7 := by
      obtain ⟨a0, a1, a2⟩ := hOct b p
      cases s <;> cases a0 <;> cases a1 <;> cases a2 <;> decide
    have h4 : hDigit s (hOct b p) * 8 ^ b + hDigit (!s) (hOct b p) * 8 ^ b = 7 * 8 ^ b := by rw [← Nat.add_mul, h3]
    have hB := Nat.pow_pos (n := b) (show 0 < 8 by omega)
    rw [Nat.pow_succ]; omega

theorem hIdx_last (b : Nat) (s : Bool) (p : V3 Nat) (hp : hIn b p) (h : hIdx b s p = 8 ^ b - 1) : p = hEnd b (!s) := by
  have := hIdx_rev b s p
  exact hIdx_first b _ _ hp (by omega)

/-- Specification: the two cells share a face (they differ by one along exactly one axis). -/
def FaceAdjacent (p q : V3 Nat) : Prop :=
  ((q.x = p.x + 1 ∨ p.x = q.x + 1) ∧ p.y = q.y ∧ p.z = q.z) ∨
  (p.x = q.x ∧ (q.y = p.y + 1 ∨ p.y = q.y + 1) ∧ p.z = q.z) ∨
  (p.x = q.x ∧ p.y = q.y ∧ (q.z = p.z + 1 ∨ p.z = q.z + 1))

theorem hT_adj0 (b : Nat) (a : Bool) (p q : V3 Nat) (hp : hIn b p) (hq : hIn b q) (h : FaceAdjacent (hT0 b a p) (hT0 b a q)) : FaceAdjacent p q := by
  obtain ⟨x, y, z⟩ := p
  obtain ⟨x', y', z'⟩ := q
  obtain ⟨p1, p2, p3⟩ := hp
  obtain ⟨q1, q2, q3⟩ := hq
  unfold FaceAdjacent hT0 at *
  simp only at p1 p2 p3 q1 q2 q3
  generalize 2 ^ b = B at *
  cases a <;> simp only [if_true, Bool.false_eq_true, if_false] at h ⊢ <;> omega

theorem hT_adj1 (b : Nat) (a : Bool) (p q : V3 Nat) (hp : hIn b p) (hq : hIn b q) (h : FaceAdjacent (hT1 b a p) (hT1 b a q)) : FaceAdjacent p q := by
  obtain ⟨x, y, z⟩ := p
  obtain ⟨x', y', z'⟩ := q
  obtain ⟨p1, p2, p3⟩ := hp
  obtain ⟨q1, q2, q3⟩ := hq
  unfold FaceAdjacent hT1 at *
  simp only at p1 p2 p3 q1 q2 q3
  generalize 2 ^ b = B at *
  cases a <;> simp only [if_true, Bool.false_eq_true, if_false] at h ⊢ <;> omega

theorem hT_adj2 (b : Nat) (a : Bool) (p q : V3 Nat) (hp : hIn b p) (hq : hIn b q) (h : FaceAdjacent (hT2 b a p) (hT2 b a q)) : FaceAdjacent p q := by
  obtain ⟨x, y, z⟩ := p
  obtain ⟨x', y', z'⟩ := q
  obtain ⟨p1, p2, p3⟩ := hp
  obtain ⟨q1, q2, q3⟩ := hq
  unfold FaceAdjacent hT2 at *
  simp only at p1 p2 p3 q1 q2 q3
  generalize 2 ^ b = B at *
  cases a <;> simp only [if_true, Bool.false_eq_true, if_false] at h ⊢ <;> omega

theorem hT_adj (b : Nat) (a : V3 Bool) (p q : V3 Nat) (hp : hIn b p) (hq : hIn b q) (h : FaceAdjacent (hT b a p) (hT b a q)) : FaceAdjacent p q := by
  have s2 := hT_adj2 b a.z _ _ (hT1_in b a.y _ (hT0_in b a.x _ hp)) (hT1_in b a.y _ (hT0_in b a.x _ hq)) h
  have s1 := hT_adj1 b a.y _ _ (hT0_in b a.x _ hp) (hT0_in b a.x _ hq) s2
  exact hT_adj0 b a.x _ _ hp hq s1

theorem hCross (b : Nat) (s : Bool) (a c : V3 Bool) (l m : V3 Nat) (hl : hIn b l) (hm : hIn b m) (hd : hDigit s c = hDigit s a + 1)
    (h1 : hT b a l = hEnd b (!(s ^^ (a.x ^^ a.y ^^ a.z)))) (h2 : hT b c m = hEnd b (s ^^ (c.x ^^ c.y ^^ c.z))) :
    FaceAdjacent ⟨2 ^ b * a.x.toNat + l.x, 2 ^ b * a.y.toNat + l.y, 2 ^ b * a.z.toNat + l.z⟩
      ⟨2 ^ b * c.x.toNat + m.x, 2 ^ b * c.y.toNat + m.y, 2 ^ b * c.z.toNat + m.z⟩ := by
  obtain ⟨a0, a1, a2⟩ := a
  obtain ⟨c0, c1, c2⟩ := c
  obtain ⟨lx, ly, lz⟩ := l
  obtain ⟨mx, my, mz⟩ := m
  obtain ⟨l1, l2, l3⟩ := hl
  obtain ⟨m1, m2, m3⟩ := hm
  simp only at l1 l2 l3 m1 m2 m3
  unfold hT hT0 hT1 hT2 hEnd at h1 h2
  unfold FaceAdjacent
  generalize 2 ^ b = B at *
  cases s <;> cases a0 <;> cases a1 <;> cases a2 <;> cases c0 <;> cases c1 <;> cases c2 <;> first
    | (exfalso; revert hd; decide)
    | (simp at h1 h2 ⊢; omega)

theorem hIdx_adj (b : Nat) : ∀ s p q, hIn b p → hIn b q → hIdx b s q = hIdx b s p + 1 → FaceAdjacent p q := by
  induction b with
  | zero => intro s p q _ _ h; simp [hIdx] at h
  | succ b ih =>
    intro s p q hp hq h
    simp only [hIdx] at h
    have hB := Nat.pow_pos (n := b) (show 0 < 8 by omega)
    have lp := hLow_in b p
    have lq := hLow_in b q
    have tp := hT_in b (hOct b p) _ lp
    have tq := hT_in b (hOct b q) _ lq
    have b1 := hIdx_lt b (s ^^ ((hOct b p).x ^^ (hOct b p).y ^^ (hOct b p).z)) (hT b (hOct b p) (hLow b p))
    have b2 := hIdx_lt b (s ^^ ((hOct b q).x ^^ (hOct b q).y ^^ (hOct b q).z)) (hT b (hOct b q) (hLow b q))
    by_cases hc : hIdx b (s ^^ ((hOct b p).x ^^ (hOct b p).y ^^ (hOct b p).z)) (hT b (hOct b p) (hLow b p)) + 1 < 8 ^ b
    · obtain ⟨h1, h2⟩ := digit_split b2 hc (by rw [h]; ring)
      have ho := (hDigit_inj s _ _ h1)
      rw [ho] at h2
      have h3 := ih _ _ _ tp (ho ▸ tq) h2
      have h4 := hT_adj b _ _ _ lp lq h3
      obtain ⟨x, y, z⟩ := p
      obtain ⟨x', y', z'⟩ := q
      obtain ⟨p1, p2, p3⟩ := hp
      obtain ⟨q1, q2, q3⟩ := hq
      have e1 := oct_low b x p1
      have e2 := oct_low b y p2
      have e3 := oct_low b z p3
      have f1 := oct_low b x' q1
      have f2 := oct_low b y' q2
      have f3 := oct_low b z' q3
      simp only [hOct, hLow, V3.mk.injEq] at ho h4
      rw [ho.1] at f1; rw [ho.2.1] at f2; rw [ho.2.2] at f3
      unfold FaceAdjacent at *
      simp only at h4 ⊢
      omega
    · have hlast : hIdx b (s ^^ ((hOct b p).x ^^ (hOct b p).y ^^ (hOct b p).z)) (hT b (hOct b p) (hLow b p)) = 8 ^ b - 1 := by omega
      have hnext : hDigit s (hOct b q) * 8 ^ b + hIdx b (s ^^ ((hOct b q).x ^^ (hOct b q).y ^^ (hOct b q).z)) (hT b (hOct b q) (hLow b q)) =
          (hDigit s (hOct b p) + 1) * 8 ^ b + 0 := by rw [h, hlast, Nat.add_mul]; omega
      obtain ⟨hd, hz⟩ := digit_split b2 hB hnext
      have ep := hIdx_last b _ _ tp hlast
      have eq := hIdx_first b _ _ tq hz
      have := hCross b s _ _ _ _ lp lq hd ep eq
      obtain ⟨x, y, z⟩ := p
      obtain ⟨x', y', z'⟩ := q
      simp only [hOct, hLow] at this
      rw [← oct_low b x hp.1, ← oct_low b y hp.2.1, ← oct_low b z hp.2.2, ← oct_low b x' hq.1, ← oct_low b y' hq.2.1, ← oct_low b z' hq.2.2] at this
      exact this

/-! ### Dyadic cells -/

/-- The dyadic cell of side `2^m` containing a point. -/
def vDiv (m : Nat) (p : V3 Nat) : V3 Nat := ⟨p.x / 2 ^ m, p.y / 2 ^ m, p.z / 2 ^ m⟩

theorem refl_div (n m l : Nat) (h : l < 2 ^ (n + m)) : (2 ^ (n + m) - 1 - l) / 2 ^ m = 2 ^ n - 1 - l / 2 ^ m := by
  have hm := Nat.two_pow_pos m
  have hn := Nat.two_pow_pos n
  have e := Nat.div_add_mod l (2 ^ m)
  have hmod := Nat.mod_lt l hm
  have hq : l / 2 ^ m < 2 ^ n := Nat.div_lt_of_lt_mul (by rw [Nat.mul_comm, ← Nat.pow_add]; exact h)
  have h1 : 2 ^ m * (2 ^ n - 1 - l / 2 ^ m) + 2 ^ m * (l / 2 ^ m) = 2 ^ (n + m) - 2 ^ m := by
    rw [← Nat.mul_add, show 2 ^ n - 1 - l / 2 ^ m + l / 2 ^ m = 2 ^ n - 1 by omega, Nat.mul_sub, Nat.mul_one, Nat.mul_comm, ← Nat.pow_add]
  have h2 : (2 : Nat) ^ m ≤ 2 ^ (n + m) := Nat.pow_le_pow_right (by omega) (by omega)
  have h3 : 2 ^ (n + m) - 1 - l = (2 ^ m - 1 - l % 2 ^ m) + 2 ^ m * (2 ^ n - 1 - l / 2 ^ m) := by omega
  rw [h3, Nat.add_mul_div_left _ _ hm, Nat.div_eq_of_lt (by omega), Nat.zero_add]

theorem hT_div (n m : Nat) (a : V3 Bool) (p : V3 Nat) (h : hIn (n + m) p) : vDiv m (hT (n + m) a p) = hT n a (vDiv m p) := by
  obtain ⟨x, y, z⟩ := p
  obtain ⟨a0, a1, a2⟩ := a
  obtain ⟨h1, h2, h3⟩ := h
  have r := fun l hl => refl_div n m l hl
  have hlt : ∀ l, 2 ^ (n + m) - 1 - l < 2 ^ (n + m) := fun l => by have := Nat.two_pow_pos (n + m); omega
  simp only at h1 h2 h3
  unfold vDiv hT hT0 hT1 hT2
  cases a0 <;> cases a1 <;> cases a2 <;> simp only [if_true, Bool.false_eq_true, if_false, V3.mk.injEq] <;>
    (first | rw [r _ (hlt _), r _ (hlt _), r _ h1] | rw [r _ (hlt _), r _ h1] | rw [r _ (hlt _), r _ h2] | rw [r _ h1, r _ h2] | rw [r _ h1] | rw [r _ h2]) <;>
    (first | (refine ⟨?_, ?_, ?_⟩ <;> first | rfl | exact r _ h1 | exact r _ h2 | exact r _ h3) | trivial)

theorem hIdx_div (n m : Nat) : ∀ s p, hIn (n + m) p → hIdx (n + m) s p / 8 ^ m = hIdx n s (vDiv m p) := by
  induction n with
  | zero =>
    intro s p _
    rw [Nat.zero_add]
    exact Nat.div_eq_of_lt (hIdx_lt m s p)
  | succ n ih =>
    intro s p hp
    rw [show n + 1 + m = n + m + 1 by ring]
    simp only [hIdx]
    have e8 : (8 : Nat) ^ (n + m) = 8 ^ n * 8 ^ m := Nat.pow_add ..
    rw [e8, ← Nat.mul_assoc, Nat.add_comm, Nat.add_mul_div_right _ _ (Nat.pow_pos (by omega)), Nat.add_comm]
    have ho : hOct (n + m) p = hOct n (vDiv m p) := by
      simp only [hOct, vDiv, Nat.testBit_div_two_pow]
    have hlw : vDiv m (hLow (n + m) p) = hLow n (vDiv m p) := by
      have aux : ∀ x : Nat, x % 2 ^ (n + m) / 2 ^ m = x / 2 ^ m % 2 ^ n := by
        intro x
        rw [Nat.add_comm n m, Nat.pow_add, Nat.mod_mul_right_div_self]
      simp only [vDiv, hLow, aux]
    rw [ih _ _ (hT_in _ _ _ (hLow_in _ _)), hT_div n m _ _ (hLow_in _ _), hlw, ho]

/-! ### Theorems about the code -/

/-- **C03.** On the grid of `2^21` cells per axis the index is below `2^63`, distinct cells have distinct indices, and every number below `2^63`
is the index of a cell. -/
theorem C03_hilbert_bijection :
    (∀ x y z : BitVec 64, InGrid 21 x.toNat y.toNat z.toNat → (icoordToHilbert x y z).toNat < 2 ^ 63) ∧
    (∀ x y z x' y' z' : BitVec 64, InGrid 21 x.toNat y.toNat z.toNat → InGrid 21 x'.toNat y'.toNat z'.toNat →
      icoordToHilbert x y z = icoordToHilbert x' y' z' → x = x' ∧ y = y' ∧ z = z') ∧
    ∀ h : BitVec 64, h.toNat < 2 ^ 63 → ∃ x y z : BitVec 64, InGrid 21 x.toNat y.toNat z.toNat ∧ icoordToHilbert x y z = h := by
  have e : ∀ x y z : BitVec 64, InGrid 21 x.toNat y.toNat z.toNat → (icoordToHilbert x y z).toNat = hIdx 21 false ⟨x.toNat, y.toNat, z.toNat⟩ :=
    fun x y z h => hilbertIndex3_eq x y z h.1 h.2.1 h.2.2
  have h8 : (8 : Nat) ^ 21 = 2 ^ 63 := by norm_num
  refine ⟨?_, ?_, ?_⟩
  · intro x y z h
    rw [e x y z h, ← h8]
    exact hIdx_lt 21 _ _
  · intro x y z x' y' z' h h' heq
    have := congrArg BitVec.toNat heq
    rw [e _ _ _ h, e _ _ _ h'] at this
    have := hIdx_inj 21 false ⟨x.toNat, y.toNat, z.toNat⟩ ⟨x'.toNat, y'.toNat, z'.toNat⟩ h h' this
    simp only [V3.mk.injEq] at this
    exact ⟨BitVec.eq_of_toNat_eq this.1, BitVec.eq_of_toNat_eq this.2.1, BitVec.eq_of_toNat_eq this.2.2⟩
  · intro h hh
    obtain ⟨p, hp, he⟩ := hIdx_surj 21 false h.toNat (by rw [h8]; exact hh)
    have h64 : ∀ n, n < 2 ^ 21 → (BitVec.ofNat 64 n).toNat = n := by
      intro n hn
      rw [BitVec.toNat_ofNat]
      exact Nat.mod_eq_of_lt (lt_trans hn (by norm_num))
    have hg : InGrid 21 (BitVec.ofNat 64 p.x).toNat (BitVec.ofNat 64 p.y).toNat (BitVec.ofNat 64 p.z).toNat := by
      rw [h64 _ hp.1, h64 _ hp.2.1, h64 _ hp.2.2]; exact hp
    refine ⟨_, _, _, hg, BitVec.eq_of_toNat_eq ?_⟩
    rw [e _ _ _ hg, h64 _ hp.1, h64 _ hp.2.1, h64 _ hp.2.2, ← he]

/-- The corners of the grid meet the hypotheses and are the ends of the curve. -/
example : InGrid 21 (2097151#64).toNat (0#64).toNat (0#64).toNat ∧ icoordToHilbert 0 0 0 = 0 ∧
    icoordToHilbert 2097151 0 0 = 0x7fffffffffffffff#64 := by
  refine ⟨⟨by decide, by decide, by decide⟩, by decide +kernel, by decide +kernel⟩

/-- **C03, wide indices.** On the grid of `2^42` cells per axis distinct cells have distinct pairs, hence are strictly ordered. -/
theorem C03_quad_total_order (x y z x' y' z' : BitVec 64) (h : InGrid 42 x.toNat y.toNat z.toNat) (h' : InGrid 42 x'.toNat y'.toNat z'.toNat) :
    (icoordToHilbertQuad x y z = icoordToHilbertQuad x' y' z' → x = x' ∧ y = y' ∧ z = z') ∧
    (¬ (x = x' ∧ y = y' ∧ z = z') →
      wideLt (icoordToHilbertQuad x y z) (icoordToHilbertQuad x' y' z') ∨ wideLt (icoordToHilbertQuad x' y' z') (icoordToHilbertQuad x y z)) := by
  have inj : icoordToHilbertQuad x y z = icoordToHilbertQuad x' y' z' → x = x' ∧ y = y' ∧ z = z' := by
    intro heq
    unfold icoordToHilbertQuad at heq
    simp only [Prod.mk.injEq] at heq
    have hup : ∀ a : BitVec 64, a.toNat < 2 ^ 42 → (a / 2097152#64).toNat < 2 ^ 21 := by
      intro a ha
      rw [BitVec.toNat_udiv, show (2097152#64).toNat = 2 ^ 21 from rfl]
      exact Nat.div_lt_of_lt_mul (by rw [← Nat.pow_add]; exact ha)
    have hlo : ∀ a : BitVec 64, (a % 2097152#64).toNat < 2 ^ 21 := by
      intro a
      rw [BitVec.toNat_umod, show (2097152#64).toNat = 2 ^ 21 from rfl]
      exact Nat.mod_lt _ (by norm_num)
    have h1 := C03_hilbert_bijection.2.1 _ _ _ _ _ _ ⟨hup x h.1, hup y h.2.1, hup z h.2.2⟩ ⟨hup x' h'.1, hup y' h'.2.1, hup z' h'.2.2⟩ heq.1
    have h2 := C03_hilbert_bijection.2.1 _ _ _ _ _ _ ⟨hlo x, hlo y, hlo z⟩ ⟨hlo x', hlo y', hlo z'⟩ heq.2
    have fin : ∀ a a' : BitVec 64, a / 2097152#64 = a' / 2097152#64 → a % 2097152#64 = a' % 2097152#64 → a = a' := by
      intro a a' e1 e2
      have e1 := congrArg BitVec.toNat e1
      have e2 := congrArg BitVec.toNat e2
      rw [BitVec.toNat_udiv, BitVec.toNat_udiv, show (2097152#64).toNat = 2097152 from rfl] at e1
      rw [BitVec.toNat_umod, BitVec.toNat_umod, show (2097152#64).toNat = 2097152 from rfl] at e2
      exact BitVec.eq_of_toNat_eq (by omega)
    exact ⟨fin _ _ h1.1 h2.1, fin _ _ h1.2.1 h2.2.1, fin _ _ h1.2.2 h2.2.2⟩
  refine ⟨inj, fun hne => ?_⟩
  by_contra hc
  apply hne
  apply inj
  unfold wideLt at hc
  simp only [not_or, not_and, BitVec.not_lt] at hc
  obtain ⟨⟨c1, c2⟩, c3, c4⟩ := hc
  have e1 := BitVec.le_antisymm c3 c1
  have e2 := BitVec.le_antisymm (c4 e1.symm) (c2 e1)
  exact Prod.ext e1 e2

example : InGrid 42 (4398046511103#64).toNat (2097152#64).toNat (0#64).toNat := ⟨by decide, by decide, by decide⟩

/-- **C49, continuity.** Cells whose indices follow each other share a face. -/
theorem C49_hilbert_adjacent (x y z x' y' z' : BitVec 64) (h : InGrid 21 x.toNat y.toNat z.toNat) (h' : InGrid 21 x'.toNat y'.toNat z'.toNat)
    (hs : (icoordToHilbert x' y' z').toNat = (icoordToHilbert x y z).toNat + 1) :
    FaceAdjacent ⟨x.toNat, y.toNat, z.toNat⟩ ⟨x'.toNat, y'.toNat, z'.toNat⟩ := by
  unfold icoordToHilbert at hs
  rw [hilbertIndex3_eq _ _ _ h.1 h.2.1 h.2.2, hilbertIndex3_eq _ _ _ h'.1 h'.2.1 h'.2.2] at hs
  exact hIdx_adj 21 false _ _ h h' hs

example : (icoordToHilbert 0 2 0).toNat = (icoordToHilbert 0 1 0).toNat + 1 := by decide +kernel

/-- **C49, locality.** Take two different cells of side `2^m` of the dyadic grid. All the points of the one come before all the points of the other
in Hilbert order; in particular a patch is before another one as soon as one of its cells is. -/
theorem C49_hilbert_cells_contiguous (m : Nat) (hm : m ≤ 21) (x y z x' y' z' u v w u' v' w' : BitVec 64)
    (h : InGrid 21 x.toNat y.toNat z.toNat) (h' : InGrid 21 x'.toNat y'.toNat z'.toNat)
    (g : InGrid 21 u.toNat v.toNat w.toNat) (g' : InGrid 21 u'.toNat v'.toNat w'.toNat)
    (e : vDiv m ⟨x.toNat, y.toNat, z.toNat⟩ = vDiv m ⟨u.toNat, v.toNat, w.toNat⟩)
    (e' : vDiv m ⟨x'.toNat, y'.toNat, z'.toNat⟩ = vDiv m ⟨u'.toNat, v'.toNat, w'.toNat⟩)
    (hne : vDiv m ⟨x.toNat, y.toNat, z.toNat⟩ ≠ vDiv m ⟨x'.toNat, y'.toNat, z'.toNat⟩)
    (hlt : icoordToHilbert x y z < icoordToHilbert x' y' z') : icoordToHilbert u v w < icoordToHilbert u' v' w' := by
  obtain ⟨n, hn⟩ : ∃ n, 21 = n + m := ⟨21 - m, by omega⟩
  have key : ∀ a b c : BitVec 64, InGrid 21 a.toNat b.toNat c.toNat →
      (icoordToHilbert a b c).toNat / 8 ^ m = hIdx n false (vDiv m ⟨a.toNat, b.toNat, c.toNat⟩) := by
    intro a b c hg
    have := hIdx_div n m false ⟨a.toNat, b.toNat, c.toNat⟩ (by rw [← hn]; exact hg)
    rw [← hn] at this
    rw [← this, ← hilbertIndex3_eq _ _ _ hg.1 hg.2.1 hg.2.2]
    rfl
  have hin : ∀ a b c : BitVec 64, InGrid 21 a.toNat b.toNat c.toNat → hIn n (vDiv m ⟨a.toNat, b.toNat, c.toNat⟩) := by
    intro a b c ⟨g1, g2, g3⟩
    have aux : ∀ v : Nat, v < 2 ^ 21 → v / 2 ^ m < 2 ^ n := fun v hv =>
      Nat.div_lt_of_lt_mul (by rw [← Nat.pow_add, Nat.add_comm m n, ← hn]; exact hv)
    exact ⟨aux _ g1, aux _ g2, aux _ g3⟩
  have hle : (icoordToHilbert x y z).toNat / 8 ^ m ≤ (icoordToHilbert x' y' z').toNat / 8 ^ m := Nat.div_le_div_right (le_of_lt (BitVec.lt_def.1 hlt))
  have hq : hIdx n false (vDiv m ⟨x.toNat, y.toNat, z.toNat⟩) ≠ hIdx n false (vDiv m ⟨x'.toNat, y'.toNat, z'.toNat⟩) :=
    fun hc => hne (hIdx_inj n false _ _ (hin _ _ _ h) (hin _ _ _ h') hc)
  rw [BitVec.lt_def]
  by_contra hc
  have hge : (icoordToHilbert u' v' w').toNat / 8 ^ m ≤ (icoordToHilbert u v w).toNat / 8 ^ m := Nat.div_le_div_right (by omega)
  rw [key _ _ _ h, key _ _ _ h'] at hle
  rw [key _ _ _ g, key _ _ _ g', ← e, ← e'] at hge
  omega

/-- Two patches of side `2^20`. -/
example : InGrid 21 (5#64).toNat (7#64).toNat (0#64).toNat ∧ InGrid 21 (9#64).toNat (1048576#64).toNat (3#64).toNat ∧
    vDiv 20 ⟨5, 7, 0⟩ = vDiv 20 ⟨1048575, 0, 3⟩ ∧ vDiv 20 ⟨5, 7, 0⟩ ≠ vDiv 20 ⟨9, 1048576, 3⟩ ∧
    icoordToHilbert 5 7 0 < icoordToHilbert 9 1048576 3 ∧ icoordToHilbert 1048575 0 3 < icoordToHilbert 9 1048576 3 := by
  refine ⟨⟨by decide, by decide, by decide⟩, ⟨by decide, by decide, by decide⟩, by decide +kernel, by decide +kernel, by decide +kernel, by decide +kernel⟩

/-- **C49, wide indices: not continuous.** With the wide index two cells that follow each other in the order of the load balancer (no cell of the grid lies
strictly between them) can be `2^21` cells apart: the low part of the index restarts from the same corner in every block. -/
theorem C49_quad_jump_defect :
    wideLt (icoordToHilbertQuad 4194303 0 0) (icoordToHilbertQuad 2097152 0 2097152) ∧
    (∀ x y z : BitVec 64, InGrid 42 x.toNat y.toNat z.toNat →
      ¬ (wideLt (icoordToHilbertQuad 4194303 0 0) (icoordToHilbertQuad x y z) ∧ wideLt (icoordToHilbertQuad x y z) (icoordToHilbertQuad 2097152 0 2097152))) ∧
    ¬ FaceAdjacent ⟨4194303, 0, 0⟩ ⟨2097152, 0, 2097152⟩ := by
  have e1 : icoordToHilbertQuad 4194303 0 0 = (1#64, 0x7fffffffffffffff#64) := by decide +kernel
  have e2 : icoordToHilbertQuad 2097152 0 2097152 = (2#64, 0#64) := by decide +kernel
  rw [e1, e2]
  refine ⟨Or.inl (by decide), ?_, ?_⟩
  · rintro x y z hg ⟨h1, h2⟩
    have hlo : ∀ a : BitVec 64, (a % 2097152#64).toNat < 2 ^ 21 := by
      intro a
      rw [BitVec.toNat_umod, show (2097152#64).toNat = 2 ^ 21 from rfl]
      exact Nat.mod_lt _ (by norm_num)
    have hb := C03_hilbert_bijection.1 (x % 2097152#64) (y % 2097152#64) (z % 2097152#64) ⟨hlo x, hlo y, hlo z⟩
    have hsnd : (icoordToHilbertQuad x y z).2.toNat < 2 ^ 63 := hb
    generalize icoordToHilbertQuad x y z = q at *
    obtain ⟨q1, q2⟩ := q
    unfold wideLt at h1 h2
    simp only [BitVec.lt_def, ← BitVec.toNat_inj] at h1 h2 hsnd
    have a1 : (1#64).toNat = 1 := rfl
    have a2 : (2#64).toNat = 2 := rfl
    have a3 : (0x7fffffffffffffff#64).toNat = 2 ^ 63 - 1 := rfl
    have a4 : (0#64).toNat = 0 := rfl
    rw [a1, a3] at h1
    rw [a2, a4] at h2
    omega
  · unfold FaceAdjacent
    simp

end Shamrock
