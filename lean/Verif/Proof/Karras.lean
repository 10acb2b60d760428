import Verif.Model.Karras
import Mathlib.Data.Nat.Bitwise
import Mathlib.Data.List.Perm.Basic
import Mathlib.Tactic.Ring
/-! Proofs about the Karras construction. -/
namespace Shamrock

theorem clz_le {w : Nat} (v : BitVec w) : clz v ≤ w := by unfold clz; split <;> omega

theorem le_clz_iff {w : Nat} (a b : BitVec w) (p : Nat) (hp : p ≤ w) :
    p ≤ clz (a ^^^ b) ↔ a.toNat >>> (w - p) = b.toNat >>> (w - p) := by
  have hv : (a ^^^ b).toNat = a.toNat ^^^ b.toNat := BitVec.toNat_xor ..
  have hlt : a.toNat ^^^ b.toNat < 2 ^ w := Nat.xor_lt_two_pow a.isLt b.isLt
  have hz : (a.toNat >>> (w - p) = b.toNat >>> (w - p)) ↔ a.toNat ^^^ b.toNat < 2 ^ (w - p) := by
    rw [← Nat.xor_eq_zero_iff, ← Nat.shiftRight_xor_distrib, Nat.shiftRight_eq_div_pow, Nat.div_eq_zero_iff]
    have := Nat.two_pow_pos (w - p)
    omega
  rw [hz]
  unfold clz
  rw [hv]
  by_cases h0 : a.toNat ^^^ b.toNat = 0
  · rw [if_pos h0, h0]
    have := Nat.two_pow_pos (w - p)
    omega
  · rw [if_neg h0, ← Nat.log2_lt h0]
    have := (Nat.log2_lt h0).2 hlt
    omega

theorem clz_ultra {w : Nat} {a b c : BitVec w} (h1 : a.toNat ≤ b.toNat) (h2 : b.toNat ≤ c.toNat) (p : Nat) :
    p ≤ clz (a ^^^ c) ↔ p ≤ clz (a ^^^ b) ∧ p ≤ clz (b ^^^ c) := by
  by_cases hp : p ≤ w
  · rw [le_clz_iff _ _ _ hp, le_clz_iff _ _ _ hp, le_clz_iff _ _ _ hp]
    rw [Nat.shiftRight_eq_div_pow, Nat.shiftRight_eq_div_pow, Nat.shiftRight_eq_div_pow]
    have e1 : a.toNat / 2 ^ (w - p) ≤ b.toNat / 2 ^ (w - p) := Nat.div_le_div_right h1
    have e2 : b.toNat / 2 ^ (w - p) ≤ c.toNat / 2 ^ (w - p) := Nat.div_le_div_right h2
    omega
  · have := clz_le (a ^^^ c); have := clz_le (a ^^^ b)
    omega

theorem clz_lt_of_ne {w : Nat} {a b : BitVec w} (h : a ≠ b) : clz (a ^^^ b) < w := by
  by_contra hc
  have := (le_clz_iff a b w (le_refl _)).1 (by omega)
  rw [Nat.sub_self, Nat.shiftRight_zero, Nat.shiftRight_zero] at this
  exact h (BitVec.eq_of_toNat_eq this)

theorem clz_ne3 {w : Nat} {a b c : BitVec w} (h1 : a.toNat < b.toNat) (h2 : b.toNat < c.toNat) : clz (a ^^^ b) ≠ clz (b ^^^ c) := by
  intro he
  have hlt := clz_lt_of_ne (a := a) (b := b) (by rintro rfl; omega)
  generalize hp : clz (a ^^^ b) = p at *
  have g1 := (le_clz_iff a b p (by omega)).1 (by omega)
  have g2 := (le_clz_iff b c p (by omega)).1 (by omega)
  have n1 : ¬ a.toNat >>> (w - (p + 1)) = b.toNat >>> (w - (p + 1)) := by rw [← le_clz_iff a b (p + 1) (by omega)]; omega
  have n2 : ¬ b.toNat >>> (w - (p + 1)) = c.toNat >>> (w - (p + 1)) := by rw [← le_clz_iff b c (p + 1) (by omega)]; omega
  rw [show w - p = (w - (p + 1)) + 1 by omega, Nat.shiftRight_succ, Nat.shiftRight_succ] at g1 g2
  have e1 : a.toNat >>> (w - (p + 1)) ≤ b.toNat >>> (w - (p + 1)) := by
    rw [Nat.shiftRight_eq_div_pow, Nat.shiftRight_eq_div_pow]; exact Nat.div_le_div_right (by omega)
  have e2 : b.toNat >>> (w - (p + 1)) ≤ c.toNat >>> (w - (p + 1)) := by
    rw [Nat.shiftRight_eq_div_pow, Nat.shiftRight_eq_div_pow]; exact Nat.div_le_div_right (by omega)
  omega

/-- The codes are strictly increasing. -/
def CodesSorted {w : Nat} (n : Nat) (m : Nat → BitVec w) : Prop := ∀ i j, i < j → j < n → (m i).toNat < (m j).toNat

/-- The codes are non decreasing. -/
def CodesMono {w : Nat} (n : Nat) (m : Nat → BitVec w) : Prop := ∀ i j, i < j → j < n → (m i).toNat ≤ (m j).toNat

theorem CodesSorted.mono {w n : Nat} {m : Nat → BitVec w} (hs : CodesSorted n m) : CodesMono n m :=
  fun i j h1 h2 => Nat.le_of_lt (hs i j h1 h2)

/-- Common prefix length of codes `k-1` and `k`; `-1` at the two ends. -/
def kB {w : Nat} (n : Nat) (m : Nat → BitVec w) (k : Int) : Int :=
  if 1 ≤ k ∧ k ≤ (n : Int) - 1 then karrasDelta n m (k - 1).toNat k else -1

section
variable {w n : Nat} {m : Nat → BitVec w}

theorem delta_in (x : Nat) (y : Nat) (hy : y < n) : karrasDelta n m x y = (clz (m x ^^^ m y) : Nat) := by
  unfold karrasDelta
  rw [if_neg (by omega), Int.toNat_natCast]

theorem delta_out (x : Nat) (y : Int) (hy : y < 0 ∨ (n : Int) - 1 < y) : karrasDelta n m x y = -1 := by
  unfold karrasDelta
  rw [if_pos hy]

theorem kB_out (k : Int) (h : ¬ (1 ≤ k ∧ k ≤ (n : Int) - 1)) : kB n m k = -1 := by unfold kB; rw [if_neg h]

theorem kB_in (k : Nat) (h1 : 1 ≤ k) (h2 : k < n) : kB n m k = karrasDelta n m (k - 1) k := by
  unfold kB
  rw [if_pos (by omega), show ((k : Int) - 1).toNat = k - 1 by omega]

theorem kB_range (hs : CodesSorted n m) (k : Nat) (h1 : 1 ≤ k) (h2 : k < n) : 0 ≤ kB n m k ∧ kB n m k < w := by
  rw [kB_in k h1 h2, delta_in _ _ h2]
  have := hs (k - 1) k (by omega) h2
  have := clz_lt_of_ne (a := m (k - 1)) (b := m k) (by intro h; rw [h] at this; omega)
  omega

theorem kB_ge (k : Int) : -1 ≤ kB n m k := by
  unfold kB karrasDelta
  split
  · split <;> omega
  · omega

theorem delta_right_nat (hs : CodesMono n m) (x : Nat) (hx : x < n) (c : Int) (hc : -1 ≤ c) : ∀ t : Nat,
    c < karrasDelta n m x ((x : Int) + 1 + t) ↔ ∀ k : Int, x < k → k ≤ (x : Int) + 1 + t → c < kB n m k := by
  intro t
  induction t with
  | zero =>
    have he : kB n m ((x : Int) + 1) = karrasDelta n m x ((x : Int) + 1) := by
      by_cases h : x + 1 < n
      · have := kB_in (m := m) (x + 1) (by omega) h
        rw [Nat.add_sub_cancel] at this
        exact_mod_cast this
      · rw [kB_out _ (by omega), delta_out _ _ (by omega)]
    constructor
    · intro h k h1 h2
      rw [show k = (x : Int) + 1 by omega, he]
      simpa using h
    · intro h
      have := h ((x : Int) + 1) (by omega) (by omega)
      rw [he] at this
      simpa using this
  | succ t ih =>
    by_cases hy : x + 2 + t < n
    · have e1 : karrasDelta n m x ((x : Int) + 1 + (t + 1 : Nat)) = (clz (m x ^^^ m (x + 2 + t)) : Nat) := by
        rw [← delta_in x (x + 2 + t) hy]; congr 1; push_cast; ring
      have e2 : karrasDelta n m x ((x : Int) + 1 + t) = (clz (m x ^^^ m (x + 1 + t)) : Nat) := by
        have := delta_in (n := n) (m := m) x (x + 1 + t) (by omega)
        push_cast at this; exact this
      have e3 : kB n m ((x : Int) + 1 + (t + 1 : Nat)) = (clz (m (x + 1 + t) ^^^ m (x + 2 + t)) : Nat) := by
        have := kB_in (m := m) (x + 2 + t) (by omega) hy
        rw [delta_in _ _ hy, show x + 2 + t - 1 = x + 1 + t by omega] at this
        rw [← this]; congr 1; push_cast; ring
      have u := clz_ultra (hs x (x + 1 + t) (by omega) (by omega))
        (hs (x + 1 + t) (x + 2 + t) (by omega) hy) (c + 1).toNat
      have key : c < karrasDelta n m x ((x : Int) + 1 + (t + 1 : Nat)) ↔
          c < karrasDelta n m x ((x : Int) + 1 + t) ∧ c < kB n m ((x : Int) + 1 + (t + 1 : Nat)) := by
        rw [e1, e2, e3]; omega
      rw [key, ih]
      constructor
      · rintro ⟨h1, h2⟩ k h3 h4
        by_cases hk : k = (x : Int) + 1 + (t + 1 : Nat)
        · rw [hk]; exact h2
        · exact h1 k h3 (by omega)
      · intro h
        exact ⟨fun k h1 h2 => h k h1 (by omega), h _ (by omega) (by omega)⟩
    · rw [delta_out _ _ (by omega)]
      constructor
      · intro h; omega
      · intro h
        have := h ((x : Int) + 1 + (t + 1 : Nat)) (by omega) (by omega)
        rw [kB_out _ (by omega)] at this
        exact this

theorem delta_right_m (hs : CodesMono n m) (x : Nat) (hx : x < n) (c : Int) (hc : -1 ≤ c) (y : Int) (hy : (x : Int) < y) :
    c < karrasDelta n m x y ↔ ∀ k : Int, x < k → k ≤ y → c < kB n m k := by
  have := delta_right_nat hs x hx c hc (y - x - 1).toNat
  rw [show (x : Int) + 1 + ((y - x - 1).toNat : Nat) = y by omega] at this
  exact this

theorem delta_left_m (hs : CodesMono n m) (x : Nat) (hx : x < n) (c : Int) (hc : -1 ≤ c) (y : Int) (hy : y < (x : Int)) :
    c < karrasDelta n m x y ↔ ∀ k : Int, y < k → k ≤ x → c < kB n m k := by
  by_cases h0 : y < 0
  · rw [delta_out _ _ (Or.inl h0)]
    constructor
    · intro h; omega
    · intro h
      have := h 0 h0 (by omega)
      rw [kB_out _ (by omega)] at this
      exact this
  · obtain ⟨z, rfl⟩ : ∃ z : Nat, y = z := ⟨y.toNat, by omega⟩
    rw [delta_in x z (by omega), BitVec.xor_comm, ← delta_in z x hx]
    exact delta_right_m hs z (by omega) c hc x hy

theorem delta_right (hs : CodesSorted n m) (x : Nat) (hx : x < n) (c : Int) (hc : -1 ≤ c) (y : Int) (hy : (x : Int) < y) :
    c < karrasDelta n m x y ↔ ∀ k : Int, x < k → k ≤ y → c < kB n m k := delta_right_m hs.mono x hx c hc y hy

theorem delta_left (hs : CodesSorted n m) (x : Nat) (hx : x < n) (c : Int) (hc : -1 ≤ c) (y : Int) (hy : y < (x : Int)) :
    c < karrasDelta n m x y ↔ ∀ k : Int, y < k → k ≤ x → c < kB n m k := delta_left_m hs.mono x hx c hc y hy

/-- Between two equal prefix lengths there is a smaller one. -/
theorem kB_unique (hs : CodesSorted n m) (p q : Nat) (h1 : 1 ≤ p) (hpq : p < q) (hq : q < n) (he : kB n m p = kB n m q) :
    ∃ r : Int, p < r ∧ r < q ∧ kB n m r < kB n m p := by
  by_contra hc
  push Not at hc
  have hr := kB_range hs p h1 (by omega)
  have ge : kB n m p - 1 < karrasDelta n m p q := by
    rw [delta_right hs p (by omega) _ (by omega) q (by omega)]
    intro k h2 h3
    by_cases hk : k = q
    · rw [hk, ← he]; omega
    · have := hc k h2 (by omega); omega
  have le : ¬ kB n m p < karrasDelta n m p q := by
    rw [delta_right hs p (by omega) _ (by omega) q (by omega)]
    intro h
    have := h q (by omega) (by omega)
    omega
  have e : karrasDelta n m p q = kB n m p := by omega
  rw [delta_in p q hq, kB_in p h1 (by omega), delta_in (p - 1) p (by omega)] at e
  exact clz_ne3 (hs (p - 1) p (by omega) (by omega)) (hs p q hpq hq) (by exact_mod_cast e.symm)

/-! ### The searches -/

theorem exists_last (P : Nat → Prop) (hdown : ∀ x, P (x + 1) → P x) (h0 : P 0) : ∀ N, ¬ P N → ∃ L, L < N ∧ ∀ x, P x ↔ x ≤ L := by
  intro N
  induction N with
  | zero => intro h; exact absurd h0 h
  | succ N ih =>
    intro h
    have hd : ∀ a b, a ≤ b → P b → P a := by
      intro a b hab
      induction hab with
      | refl => exact id
      | step _ ih2 => intro hp; exact ih2 (hdown _ hp)
    by_cases hN : P N
    · refine ⟨N, by omega, ?_⟩
      intro x
      constructor
      · intro hx; by_contra hc; exact h (hd _ _ (by omega) hx)
      · intro hx; exact hd _ _ hx hN
    · obtain ⟨L, h1, h2⟩ := ih hN
      exact ⟨L, by omega, h2⟩

theorem lmaxLoop_spec (test : Nat → Bool) (L : Nat) (ht : ∀ x, 1 ≤ x → x ≤ 2 ^ 30 → (test x = true ↔ x ≤ L)) : ∀ (f e : Nat),
    1 ≤ e → e + f = 30 → L < 2 ^ 30 → ∃ e', 1 ≤ e' ∧ e' ≤ 30 ∧ lmaxLoop test f (2 ^ e) = some (2 ^ e') ∧ L < 2 ^ e' := by
  intro f
  induction f with
  | zero =>
    intro e h1 h2 h3
    obtain rfl : e = 30 := by omega
    have := ht (2 ^ 30) (by omega) (le_refl _)
    refine ⟨30, by omega, by omega, ?_, h3⟩
    unfold lmaxLoop
    rw [if_neg (by rw [this]; omega)]
  | succ f ih =>
    intro e h1 h2 h3
    have hp : 2 ^ e ≤ 2 ^ 30 := Nat.pow_le_pow_right (by omega) (by omega)
    have := ht (2 ^ e) (Nat.two_pow_pos e) hp
    unfold lmaxLoop
    by_cases hl : 2 ^ e ≤ L
    · rw [if_pos (this.2 hl), ← Nat.pow_succ]
      exact ih (e + 1) (by omega) (by omega) h3
    · rw [if_neg (by rw [this]; exact hl)]
      exact ⟨e, h1, by omega, rfl, by omega⟩

theorem findEndLoop_spec (test : Nat → Bool) (L : Nat) (ht : ∀ x, 1 ≤ x → x ≤ 2 ^ 30 → (test x = true ↔ x ≤ L)) : ∀ (e f l : Nat),
    e < f → l ≤ L → L < l + 2 * 2 ^ e → l + 2 * 2 ^ e ≤ 2 ^ 30 → findEndLoop test f l (2 ^ e) = L := by
  intro e
  induction e with
  | zero =>
    intro f l hf h1 h2 h3
    obtain ⟨g, rfl⟩ : ∃ g, f = g + 1 := ⟨f - 1, by omega⟩
    unfold findEndLoop
    rw [if_pos (by decide)]
    have hz : ∀ l', findEndLoop test g l' (2 ^ 0 / 2) = l' := by
      intro l'
      cases g with
      | zero => rfl
      | succ g => rfl
    rw [hz]
    have := ht (l + 2 ^ 0) (by omega) (by omega)
    by_cases hc : l + 2 ^ 0 ≤ L
    · rw [if_pos (this.2 hc)]; omega
    · rw [if_neg (by rw [this]; exact hc)]; omega
  | succ e ih =>
    intro f l hf h1 h2 h3
    obtain ⟨g, rfl⟩ : ∃ g, f = g + 1 := ⟨f - 1, by omega⟩
    unfold findEndLoop
    rw [if_pos (Nat.two_pow_pos _), show 2 ^ (e + 1) / 2 = 2 ^ e by rw [Nat.pow_succ]; omega]
    rw [Nat.pow_succ] at h2 h3
    rw [Nat.pow_succ]
    have hp := Nat.two_pow_pos e
    have := ht (l + 2 ^ e * 2) (by omega) (by omega)
    by_cases hc : l + 2 ^ e * 2 ≤ L
    · rw [if_pos (this.2 hc)]
      exact ih g _ (by omega) hc (by omega) (by omega)
    · rw [if_neg (by rw [this]; exact hc)]
      exact ih g _ (by omega) h1 (by omega) (by omega)

theorem endSearch_spec (test : Nat → Bool) (L : Nat) (ht : ∀ x, 1 ≤ x → x ≤ 2 ^ 30 → (test x = true ↔ x ≤ L)) (hL : L < 2 ^ 30) :
    ∃ lmax, lmaxLoop test 29 2 = some lmax ∧ findEndLoop test 31 0 (lmax / 2) = L := by
  obtain ⟨e', a1, a2, a3, a4⟩ := lmaxLoop_spec test L ht 29 1 (by omega) (by omega) hL
  obtain ⟨g, rfl⟩ : ∃ g, e' = g + 1 := ⟨e' - 1, by omega⟩
  have hhalf : 2 ^ (g + 1) / 2 = 2 ^ g := by rw [Nat.pow_succ]; omega
  have h30 : 2 ^ (g + 1) ≤ 2 ^ 30 := Nat.pow_le_pow_right (by omega) a2
  rw [Nat.pow_one] at a3
  refine ⟨2 ^ (g + 1), a3, ?_⟩
  rw [hhalf]
  rw [Nat.pow_succ] at h30 a4
  exact findEndLoop_spec test L ht g 31 0 (by omega) (by omega) (by omega) (by omega)

/-- Exact ceiling of `l / 2^k`. -/
theorem splitStep_exact {l : Nat} (hl : l ≤ 2 ^ 24) (k : Nat) : splitStep l k = (l + 2 ^ k - 1) / 2 ^ k := by
  unfold splitStep
  congr 2
  have : f32OfNat l = l := by
    by_cases h : l < 2 ^ 24
    · unfold f32OfNat; rw [if_pos h]
    · obtain rfl : l = 2 ^ 24 := by omega
      decide
  rw [this]

theorem ceil_half (l k : Nat) : (l + 2 ^ k - 1) / 2 ^ k ≤ 2 * ((l + 2 ^ (k + 1) - 1) / 2 ^ (k + 1)) ∧
    (l + 2 ^ (k + 1) - 1) / 2 ^ (k + 1) ≤ (l + 2 ^ k - 1) / 2 ^ k := by
  have hp := Nat.two_pow_pos k
  have hp1 := Nat.two_pow_pos (k + 1)
  constructor
  · have h1 := Nat.div_add_mod (l + 2 ^ (k + 1) - 1) (2 ^ (k + 1))
    have h2 := Nat.mod_lt (l + 2 ^ (k + 1) - 1) hp1
    have : l ≤ 2 ^ (k + 1) * ((l + 2 ^ (k + 1) - 1) / 2 ^ (k + 1)) := by omega
    generalize (l + 2 ^ (k + 1) - 1) / 2 ^ (k + 1) = q at *
    rw [Nat.pow_succ] at this
    apply Nat.le_of_lt_succ
    rw [Nat.div_lt_iff_lt_mul hp]
    rw [show (2 * q).succ * 2 ^ k = 2 ^ k * 2 * q + 2 ^ k by rw [Nat.succ_mul]; ring]
    omega
  · have h1 := Nat.div_add_mod (l + 2 ^ k - 1) (2 ^ k)
    have h2 := Nat.mod_lt (l + 2 ^ k - 1) hp
    have : l ≤ 2 ^ k * ((l + 2 ^ k - 1) / 2 ^ k) := by omega
    generalize (l + 2 ^ k - 1) / 2 ^ k = q at *
    apply Nat.le_of_lt_succ
    rw [Nat.div_lt_iff_lt_mul hp1]
    have h4 : 2 ^ (k + 1) = 2 * 2 ^ k := by rw [Nat.pow_succ]; ring
    have h5 : q.succ * 2 ^ (k + 1) = 2 * (2 ^ k * q) + 2 ^ (k + 1) := by rw [Nat.succ_mul, h4]; ring
    omega

theorem splitLoop_spec (test : Nat → Bool) (l S : Nat) (hl : l ≤ 2 ^ 24) (hS : S < l)
    (ht : ∀ x, 1 ≤ x → x ≤ 2 ^ 25 → (test x = true ↔ x ≤ S)) : ∀ (f k s : Nat), 0 < f → s ≤ S →
    S < s + (l + 2 ^ k - 1) / 2 ^ k → (l + 2 ^ k - 1) / 2 ^ k ≤ l → l ≤ 2 ^ (k + f) → splitLoop test l f (k + 1) s = some S := by
  intro f
  induction f with
  | zero => intro k s h; omega
  | succ f ih =>
    intro k s _ h1 h2 hle h3
    unfold splitLoop
    rw [splitStep_exact hl]
    obtain ⟨c1, c2⟩ := ceil_half l k
    have hpos : 1 ≤ (l + 2 ^ (k + 1) - 1) / 2 ^ (k + 1) := by
      rw [Nat.one_le_div_iff (Nat.two_pow_pos _)]; omega
    simp only
    generalize ht' : (l + 2 ^ (k + 1) - 1) / 2 ^ (k + 1) = t at *
    have htest := ht (s + t) (by omega) (by omega)
    have hnew : (if test (s + t) = true then s + t else s) ≤ S ∧ S < (if test (s + t) = true then s + t else s) + t := by
      by_cases hc : s + t ≤ S
      · rw [if_pos (htest.2 hc)]; omega
      · rw [if_neg (by rw [htest]; exact hc)]; omega
    by_cases ht1 : t ≤ 1
    · rw [if_pos ht1]
      congr 1
      omega
    · rw [if_neg ht1]
      have hf : 0 < f := by
        by_contra hf
        obtain rfl : f = 0 := by omega
        rw [Nat.add_zero] at h3
        have : (l + 2 ^ (k + 1) - 1) / 2 ^ (k + 1) < 2 := by
          rw [Nat.div_lt_iff_lt_mul (Nat.two_pow_pos _)]; have := Nat.two_pow_pos (k + 1); omega
        omega
      have ih' := ih (k + 1) (if test (s + t) = true then s + t else s) hf hnew.1
      rw [ht'] at ih'
      exact ih' hnew.2 (by omega) (by rw [show k + 1 + f = k + (f + 1) by omega]; exact h3)

theorem wrapI32_id {x : Int} (h1 : -2 ^ 31 ≤ x) (h2 : x < 2 ^ 31) : wrapI32 x = x := by unfold wrapI32; omega

theorem wrapU32_nat {x : Nat} (h2 : x < 2 ^ 32) : wrapU32 x = x := by unfold wrapU32; omega

attribute [local irreducible] lmaxLoop findEndLoop splitLoop wrapI32 wrapU32 karrasDelta kB

theorem karrasRange_eq (i : Nat) (d : Int)
    (hd : sgn (karrasDelta n m i (wrapI32 (i + 1)) - karrasDelta n m i (wrapI32 (i - 1))) = d) (lmax L : Nat)
    (h1 : lmaxLoop (fun x : Nat => decide (karrasDelta n m i (wrapI32 ((i : Int) - d)) <
      karrasDelta n m i (wrapI32 ((i : Int) + x * d)))) 29 2 = some lmax)
    (h2 : findEndLoop (fun x : Nat => decide (karrasDelta n m i (wrapI32 ((i : Int) - d)) <
      karrasDelta n m i (wrapI32 ((i : Int) + x * d)))) 31 0 (lmax / 2) = L) : karrasRange n m i = some (d, L) := by
  subst hd
  unfold karrasRange
  dsimp only
  rw [h1, Option.map_some, h2]

/-! ### One work item -/

/-- What the range search finds. -/
theorem karrasRange_spec (hs : CodesSorted n m) (hn : n ≤ 2 ^ 30) (i : Nat) (hi : i + 1 < n) :
    (∃ l : Nat, karrasRange n m i = some (1, l) ∧ 1 ≤ l ∧ i + l < n ∧ kB n m i < kB n m (i + 1 : Nat) ∧
      (∀ k : Int, i < k → k ≤ i + l → kB n m i < kB n m k) ∧ kB n m (i + l + 1 : Nat) ≤ kB n m i) ∨
    (∃ l : Nat, karrasRange n m i = some (-1, l) ∧ 1 ≤ l ∧ l ≤ i ∧ kB n m (i + 1 : Nat) < kB n m i ∧
      (∀ k : Int, (i : Int) - l < k → k ≤ i → kB n m (i + 1 : Nat) < kB n m k) ∧ kB n m (i - l : Nat) ≤ kB n m (i + 1 : Nat)) := by
  have e1 : karrasDelta n m i (wrapI32 (i + 1)) = kB n m (i + 1 : Nat) := by
    rw [wrapI32_id (by omega) (by omega), kB_in (i + 1) (by omega) hi, Nat.add_sub_cancel]; push_cast; rfl
  have e0 : karrasDelta n m i (wrapI32 (i - 1)) = kB n m i := by
    rw [wrapI32_id (by omega) (by omega)]
    by_cases h0 : i = 0
    · subst h0; rw [delta_out _ _ (by omega), kB_out _ (by omega)]
    · rw [kB_in i (by omega) (by omega), delta_in _ _ (by omega), BitVec.xor_comm, ← delta_in (n := n) i (i - 1) (by omega), show ((i - 1 : Nat) : Int) = (i : Int) - 1 by omega]
  have hne : kB n m i ≠ kB n m (i + 1 : Nat) := by
    by_cases h0 : i = 0
    · subst h0
      rw [kB_out (((0 : Nat) : Int)) (by omega)]
      have := kB_range hs 1 (by omega) (by omega)
      simp only [Nat.zero_add]
      omega
    · intro he
      obtain ⟨r, h1, h2, _⟩ := kB_unique hs i (i + 1) (by omega) (by omega) hi he
      omega
  have hge := kB_ge (n := n) (m := m) i
  have hge1 := kB_ge (n := n) (m := m) (i + 1 : Nat)
  rcases lt_or_gt_of_ne hne with hlt | hgt
  · left
    -- d = 1
    have hd : sgn (kB n m (i + 1 : Nat) - kB n m i) = 1 := by unfold sgn; rw [if_neg (by omega), if_pos (by omega)]
    let P : Nat → Prop := fun x => ∀ k : Int, i < k → k ≤ i + x → kB n m i < kB n m k
    obtain ⟨L, hL1, hL2⟩ := exists_last P (fun x h k a b => h k a (by push_cast; omega)) (fun k a b => by omega) (n - i) (by
      intro h
      have := h n (by omega) (by omega)
      have hk := kB_out (n := n) (m := m) (n : Int) (by omega)
      omega)
    have hL3 : 1 ≤ L := (hL2 1).1 (fun k a b => by rw [show k = ((i + 1 : Nat) : Int) by push_cast; omega]; exact hlt)
    have htest : ∀ x : Nat, 1 ≤ x → x ≤ 2 ^ 30 →
        (decide (karrasDelta n m i (wrapI32 ((i : Int) - 1)) < karrasDelta n m i (wrapI32 ((i : Int) + x * 1))) = true ↔ x ≤ L) := by
      intro x h1 h2
      rw [decide_eq_true_eq, e0, wrapI32_id (by omega) (by omega), delta_right hs i (by omega) _ hge _ (by omega), ← hL2 x]
      simp only [P, Int.mul_one]
    obtain ⟨lmax, a3, b1⟩ := endSearch_spec _ L htest (by omega)
    refine ⟨L, ?_, hL3, by omega, hlt, ?_, ?_⟩
    · exact karrasRange_eq i 1 (by rw [e1, e0]; exact hd) lmax L a3 b1
    · exact (hL2 L).2 (le_refl _)
    · by_contra hc
      have : P (L + 1) := by
        intro k h1 h2
        by_cases hk : k = ((i + L + 1 : Nat) : Int)
        · rw [hk]; omega
        · exact (hL2 L).2 (le_refl _) k h1 (by push_cast at *; omega)
      have := (hL2 (L + 1)).1 this
      omega
  · right
    have hd : sgn (kB n m (i + 1 : Nat) - kB n m i) = -1 := by unfold sgn; rw [if_neg (by omega), if_neg (by omega)]
    let P : Nat → Prop := fun x => ∀ k : Int, (i : Int) - x < k → k ≤ i → kB n m (i + 1 : Nat) < kB n m k
    obtain ⟨L, hL1, hL2⟩ := exists_last P (fun x h k a b => h k (by push_cast; omega) b) (fun k a b => by omega) (i + 1) (by
      intro h
      have := h 0 (by push_cast; omega) (by omega)
      have hk := kB_out (n := n) (m := m) (0 : Int) (by omega)
      omega)
    have hL3 : 1 ≤ L := (hL2 1).1 (fun k a b => by rw [show k = (i : Int) by push_cast at a; omega]; exact hgt)
    have e1' : karrasDelta n m i (wrapI32 ((i : Int) - -1)) = kB n m (i + 1 : Nat) := by rw [show (i : Int) - -1 = i + 1 by omega]; exact e1
    have htest : ∀ x : Nat, 1 ≤ x → x ≤ 2 ^ 30 →
        (decide (karrasDelta n m i (wrapI32 ((i : Int) - -1)) < karrasDelta n m i (wrapI32 ((i : Int) + x * -1))) = true ↔ x ≤ L) := by
      intro x h1 h2
      rw [decide_eq_true_eq, e1', wrapI32_id (by omega) (by omega), delta_left hs i (by omega) _ hge1 _ (by omega), ← hL2 x]
      simp only [P]
      rw [show (i : Int) + x * -1 = i - x by ring]
    obtain ⟨lmax, a3, b1⟩ := endSearch_spec _ L htest (by omega)
    refine ⟨L, ?_, hL3, by omega, hgt, ?_, ?_⟩
    · exact karrasRange_eq i (-1) (by rw [e1, e0]; exact hd) lmax L a3 b1
    · exact (hL2 L).2 (le_refl _)
    · by_contra hc
      have : P (L + 1) := by
        intro k h1 h2
        by_cases hk : k = ((i - L : Nat) : Int)
        · rw [hk]; omega
        · exact (hL2 L).2 (le_refl _) k (by clear a3 b1 htest hL2 e1 e0 e1'; omega) h2
      have := (hL2 (L + 1)).1 this
      omega

end
end Shamrock
