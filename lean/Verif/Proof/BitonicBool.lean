import Mathlib.Tactic.Ring
import Mathlib.Tactic.Linarith
/-! Boolean (threshold) level of the bitonic network: passes, stencils, bitonic merge. -/
namespace Shamrock

/-- Compare-exchange of positions `a`, `b` of a boolean array (`rv` = ascending). -/
def cmpB (rv : Bool) (a b : Nat) (g : Nat → Bool) : Nat → Bool := fun j =>
  if j = a then (if rv then g a && g b else g a || g b)
  else if j = b then (if rv then g a || g b else g a && g b)
  else g j

/-- `n` compare-exchanges at strided positions `base + i*q`, `base + (i+h)*q`. -/
def loopB (q base h : Nat) (rv : Bool) : Nat → Nat → (Nat → Bool) → (Nat → Bool)
  | 0, _, g => g
  | n + 1, i, g => loopB q base h rv n (i + 1) (cmpB rv (base + i * q) (base + (i + h) * q) g)

/-- The stencil at strided positions. -/
def stencilB (q : Nat) : Nat → Nat → Bool → (Nat → Bool) → (Nat → Bool)
  | 0, _, _, g => g
  | s + 1, base, rv, g =>
    stencilB q s (base + 2 ^ s * q) rv (stencilB q s base rv (loopB q base (2 ^ s) rv (2 ^ s) 0 g))

/-- A whole pass with distance `d`. -/
def pass (rvf : Nat → Bool) (d : Nat) (g : Nat → Bool) : Nat → Bool := fun j =>
  if j % (2 * d) < d then (if rvf j then g j && g (j + d) else g j || g (j + d))
  else (if rvf j then g (j - d) || g j else g (j - d) && g j)

/-- Passes with distances `q*2^(s-1), …, q`. -/
def passes (rvf : Nat → Bool) (q : Nat) : Nat → (Nat → Bool) → (Nat → Bool)
  | 0, g => g
  | s + 1, g => passes rvf q s (pass rvf (q * 2 ^ s) g)

theorem passes_add (rvf : Nat → Bool) (q b : Nat) : ∀ a g, passes rvf q (a + b) g = passes rvf q b (passes rvf (q * 2 ^ b) a g) := by
  intro a
  induction a with
  | zero => intro g; simp [passes]
  | succ a ih =>
    intro g
    rw [show a + 1 + b = (a + b) + 1 by omega]
    simp only [passes]
    rw [ih, show q * 2 ^ (a + b) = q * 2 ^ b * 2 ^ a by rw [Nat.pow_add]; ring]

/-- Strided index in aligned block `B`, residue `r`. -/
def ix (q s B r k : Nat) : Nat := q * (2 ^ s * B + k) + r

theorem ix_lo (q s B r k : Nat) : ix q (s + 1) B r k = ix q s (2 * B) r k := by
  unfold ix; rw [pow_succ]; ring

theorem ix_hi (q s B r k : Nat) : ix q (s + 1) B r (2 ^ s + k) = ix q s (2 * B + 1) r k := by
  unfold ix; rw [pow_succ]; ring

theorem ix_mod (q s B r k : Nat) (hr : r < q) (hk : k < 2 ^ (s + 1)) :
    ix q (s + 1) B r k % (2 * (q * 2 ^ s)) = q * k + r := by
  have e : ix q (s + 1) B r k = q * k + r + 2 * (q * 2 ^ s) * B := by
    unfold ix; rw [pow_succ]; ring
  rw [e, Nat.add_mul_mod_self_left]
  apply Nat.mod_eq_of_lt
  have : q * (k + 1) ≤ q * 2 ^ (s + 1) := Nat.mul_le_mul_left _ hk
  rw [pow_succ] at this
  have e1 : q * (k + 1) = q * k + q := by ring
  have e2 : q * (2 ^ s * 2) = 2 * (q * 2 ^ s) := by ring
  omega

theorem ix_lt_iff (q s r k : Nat) (hr : r < q) : q * k + r < q * 2 ^ s ↔ k < 2 ^ s := by
  constructor
  · intro h
    by_contra hc
    have : q * 2 ^ s ≤ q * k := Nat.mul_le_mul_left _ (by omega)
    omega
  · intro h
    have : q * (k + 1) ≤ q * 2 ^ s := Nat.mul_le_mul_left _ h
    have e1 : q * (k + 1) = q * k + q := by ring
    omega

theorem ix_add (q s B r k : Nat) : ix q (s + 1) B r k + q * 2 ^ s = ix q (s + 1) B r (2 ^ s + k) := by
  unfold ix; ring

theorem pass_lo (rvf : Nat → Bool) (q s B r k : Nat) (hr : r < q) (hk : k < 2 ^ s) (g : Nat → Bool) :
    pass rvf (q * 2 ^ s) g (ix q (s + 1) B r k) =
      if rvf (ix q (s + 1) B r k) then g (ix q (s + 1) B r k) && g (ix q (s + 1) B r (2 ^ s + k))
      else g (ix q (s + 1) B r k) || g (ix q (s + 1) B r (2 ^ s + k)) := by
  unfold pass
  rw [ix_mod q s B r k hr (by rw [pow_succ]; omega), if_pos ((ix_lt_iff q s r k hr).2 hk), ix_add]

theorem pass_hi (rvf : Nat → Bool) (q s B r k : Nat) (hr : r < q) (hk : k < 2 ^ s) (g : Nat → Bool) :
    pass rvf (q * 2 ^ s) g (ix q (s + 1) B r (2 ^ s + k)) =
      if rvf (ix q (s + 1) B r (2 ^ s + k)) then g (ix q (s + 1) B r k) || g (ix q (s + 1) B r (2 ^ s + k))
      else g (ix q (s + 1) B r k) && g (ix q (s + 1) B r (2 ^ s + k)) := by
  unfold pass
  rw [ix_mod q s B r _ hr (by rw [pow_succ]; omega), if_neg (fun h => by have := (ix_lt_iff q s r _ hr).1 h; omega),
    show ix q (s + 1) B r (2 ^ s + k) - q * 2 ^ s = ix q (s + 1) B r k by rw [← ix_add]; omega]

theorem split_lt_pow (s k : Nat) (h : k < 2 ^ (s + 1)) : k < 2 ^ s ∨ ∃ k', k = 2 ^ s + k' ∧ k' < 2 ^ s := by
  rw [pow_succ] at h
  by_cases hk : k < 2 ^ s
  · exact Or.inl hk
  · exact Or.inr ⟨k - 2 ^ s, by omega, by omega⟩

/-- Locality of a group of passes. -/
theorem passes_local (rvf : Nat → Bool) (q r : Nat) (hr : r < q) : ∀ s B g g',
    (∀ k < 2 ^ s, g (ix q s B r k) = g' (ix q s B r k)) →
    ∀ k < 2 ^ s, passes rvf q s g (ix q s B r k) = passes rvf q s g' (ix q s B r k) := by
  intro s
  induction s with
  | zero => intro B g g' h k hk; exact h k hk
  | succ s ih =>
    intro B g g' h k hk
    simp only [passes]
    have hp : ∀ k < 2 ^ (s + 1), pass rvf (q * 2 ^ s) g (ix q (s + 1) B r k) = pass rvf (q * 2 ^ s) g' (ix q (s + 1) B r k) := by
      intro k hk
      rcases split_lt_pow s k hk with h1 | ⟨k', rfl, h1⟩
      · rw [pass_lo _ _ _ _ _ _ hr h1, pass_lo _ _ _ _ _ _ hr h1, h k hk, h (2 ^ s + k) (by rw [pow_succ]; omega)]
      · rw [pass_hi _ _ _ _ _ _ hr h1, pass_hi _ _ _ _ _ _ hr h1, h k' (by omega), h (2 ^ s + k') hk]
    rcases split_lt_pow s k hk with h1 | ⟨k', rfl, h1⟩
    · rw [ix_lo]
      exact ih (2 * B) _ _ (fun j hj => by rw [← ix_lo]; exact hp j (by rw [pow_succ]; omega)) k h1
    · rw [ix_hi]
      exact ih (2 * B + 1) _ _ (fun j hj => by rw [← ix_hi]; exact hp _ (by rw [pow_succ]; omega)) k' h1

/-- What the compare-exchange loop does. -/
theorem loopB_spec (q base h : Nat) (hq : 0 < q) (rv : Bool) : ∀ n i g, i + n ≤ h →
    (∀ k, i ≤ k → k < i + n →
      loopB q base h rv n i g (base + k * q) =
        (if rv then g (base + k * q) && g (base + (k + h) * q) else g (base + k * q) || g (base + (k + h) * q)) ∧
      loopB q base h rv n i g (base + (k + h) * q) =
        (if rv then g (base + k * q) || g (base + (k + h) * q) else g (base + k * q) && g (base + (k + h) * q))) ∧
    (∀ j, (∀ k, i ≤ k → k < i + n → j ≠ base + k * q ∧ j ≠ base + (k + h) * q) → loopB q base h rv n i g j = g j) := by
  intro n
  induction n with
  | zero => intro i g _; exact ⟨fun k h1 h2 => by omega, fun j _ => rfl⟩
  | succ n ih =>
    intro i g hi
    simp only [loopB]
    have inj : ∀ a b : Nat, base + a * q = base + b * q → a = b := by
      intro a b hab
      exact Nat.eq_of_mul_eq_mul_right hq (by omega)
    obtain ⟨h1, h2⟩ := ih (i + 1) (cmpB rv (base + i * q) (base + (i + h) * q) g) (by omega)
    constructor
    · intro k k1 k2
      by_cases hk : k = i
      · subst hk
        have o1 := h2 (base + k * q) (fun k' a b => ⟨fun hc => by have := inj _ _ hc; omega, fun hc => by have := inj _ _ hc; omega⟩)
        have o2 := h2 (base + (k + h) * q) (fun k' a b => ⟨fun hc => by have := inj _ _ hc; omega, fun hc => by have := inj _ _ hc; omega⟩)
        rw [o1, o2]
        have hne : ¬ base + (k + h) * q = base + k * q := fun hc => by have := inj _ _ hc; omega
        unfold cmpB
        rw [if_pos rfl, if_neg hne, if_pos rfl]
        exact ⟨rfl, rfl⟩
      · obtain ⟨a1, a2⟩ := h1 k (by omega) (by omega)
        rw [a1, a2]
        have e1 : cmpB rv (base + i * q) (base + (i + h) * q) g (base + k * q) = g (base + k * q) := by
          unfold cmpB
          rw [if_neg (fun hc => by have := inj _ _ hc; omega), if_neg (fun hc => by have := inj _ _ hc; omega)]
        have e2 : cmpB rv (base + i * q) (base + (i + h) * q) g (base + (k + h) * q) = g (base + (k + h) * q) := by
          unfold cmpB
          rw [if_neg (fun hc => by have := inj _ _ hc; omega), if_neg (fun hc => by have := inj _ _ hc; omega)]
        rw [e1, e2]
        exact ⟨rfl, rfl⟩
    · intro j hj
      rw [h2 j (fun k a b => hj k (by omega) (by omega))]
      obtain ⟨n1, n2⟩ := hj i (Nat.le_refl _) (by omega)
      unfold cmpB
      rw [if_neg n1, if_neg n2]

/-- A stencil touches only its strided positions. -/
theorem stencilB_frame (q : Nat) (hq : 0 < q) (rv : Bool) : ∀ s base g j, (∀ k < 2 ^ s, j ≠ base + k * q) →
    stencilB q s base rv g j = g j := by
  intro s
  induction s with
  | zero => intro base g j _; rfl
  | succ s ih =>
    intro base g j hj
    simp only [stencilB]
    have hp : 2 ^ (s + 1) = 2 ^ s + 2 ^ s := by rw [pow_succ]; ring
    rw [ih _ _ _ (fun k hk hc => hj (k + 2 ^ s) (by omega) (by rw [hc]; ring)), ih _ _ _ (fun k hk => hj k (by omega)),
      (loopB_spec q base (2 ^ s) hq rv (2 ^ s) 0 g (by omega)).2 j
        (fun k _ hk => ⟨hj k (by omega), hj (k + 2 ^ s) (by omega)⟩)]

theorem ix_base (q s B r k : Nat) : ix q s B r 0 + k * q = ix q s B r k := by unfold ix; ring

/-- On its footprint the stencil is the group of passes. -/
theorem stencilB_passes (rvf : Nat → Bool) (rv : Bool) (q r : Nat) (hr : r < q) : ∀ s B g,
    (∀ k < 2 ^ s, rvf (ix q s B r k) = rv) →
    ∀ k < 2 ^ s, stencilB q s (ix q s B r 0) rv g (ix q s B r k) = passes rvf q s g (ix q s B r k) := by
  intro s
  induction s with
  | zero => intro B g _ k hk; rfl
  | succ s ih =>
    intro B g hrv k hk
    have hq : 0 < q := by omega
    have hp : 2 ^ (s + 1) = 2 ^ s + 2 ^ s := by rw [pow_succ]; ring
    simp only [stencilB, passes]
    obtain ⟨l1, l2⟩ := loopB_spec q (ix q (s + 1) B r 0) (2 ^ s) hq rv (2 ^ s) 0 g (by omega)
    generalize hg1 : loopB q (ix q (s + 1) B r 0) (2 ^ s) rv (2 ^ s) 0 g = g1 at l1 l2
    -- the loop is the first pass on the footprint
    have hpass : ∀ k < 2 ^ (s + 1), g1 (ix q (s + 1) B r k) = pass rvf (q * 2 ^ s) g (ix q (s + 1) B r k) := by
      intro k hk
      rcases split_lt_pow s k hk with h1 | ⟨k', rfl, h1⟩
      · have := (l1 k (by omega) (by omega)).1
        rw [ix_base, ix_base, Nat.add_comm k] at this
        rw [this, pass_lo _ _ _ _ _ _ hr h1, hrv k hk]
      · have := (l1 k' (by omega) (by omega)).2
        rw [ix_base, ix_base, Nat.add_comm k'] at this
        rw [this, pass_hi _ _ _ _ _ _ hr h1, hrv _ hk]
    have eb : ix q (s + 1) B r 0 + 2 ^ s * q = ix q s (2 * B + 1) r 0 := by rw [ix_base, ← ix_hi]; rfl
    rw [eb, ix_lo q s B r 0]
    have rlo : ∀ k < 2 ^ s, rvf (ix q s (2 * B) r k) = rv := fun k hk => by rw [← ix_lo]; exact hrv k (by omega)
    have rhi : ∀ k < 2 ^ s, rvf (ix q s (2 * B + 1) r k) = rv := fun k hk => by rw [← ix_hi]; exact hrv _ (by omega)
    have inj : ∀ a b, ix q s (2 * B) r a = ix q s (2 * B + 1) r b → a = 2 ^ s + b := by
      intro a b hab
      unfold ix at hab
      have : 2 ^ s * (2 * B) + a = 2 ^ s * (2 * B + 1) + b := Nat.eq_of_mul_eq_mul_left hq (by omega)
      have e : 2 ^ s * (2 * B + 1) = 2 ^ s * (2 * B) + 2 ^ s := by ring
      omega
    rcases split_lt_pow s k hk with h1 | ⟨k', rfl, h1⟩
    · rw [ix_lo, stencilB_frame q hq rv s _ _ _ (fun k' hk' hc => by rw [ix_base] at hc; have := inj _ _ hc; omega),
        ih (2 * B) g1 rlo k h1]
      exact passes_local rvf q r hr s (2 * B) _ _ (fun j hj => by rw [← ix_lo]; exact hpass j (by omega)) k h1
    · rw [ix_hi, ih (2 * B + 1) _ rhi k' h1]
      apply passes_local rvf q r hr s (2 * B + 1) _ _ _ k' h1
      intro j hj
      rw [stencilB_frame q hq rv s _ _ _ (fun k' hk' hc => by rw [ix_base] at hc; have := inj _ _ hc.symm; omega), ← ix_hi]
      exact hpass _ (by omega)

/-- A bitonic boolean sequence on `[a, a+n)`: an interval of one value. -/
def Bit (g : Nat → Bool) (a n : Nat) : Prop :=
  ∃ (v : Bool) (x y : Nat), ∀ k < n, g (a + k) = if x ≤ k ∧ k < y then v else !v

theorem Bit_not (g : Nat → Bool) (a n : Nat) (h : Bit (fun j => !g j) a n) : Bit g a n := by
  obtain ⟨v, x, y, h⟩ := h
  refine ⟨!v, x, y, fun k hk => ?_⟩
  have := h k hk
  split at this <;> split <;> simp_all <;> rw [← this] <;> simp

theorem Bit_const (g : Nat → Bool) (a n : Nat) (v : Bool) (h : ∀ k < n, g (a + k) = v) : Bit g a n :=
  ⟨v, 0, n, fun k hk => by rw [if_pos ⟨by omega, hk⟩]; exact h k hk⟩

/-- The half cleaner. -/
theorem half_cleaner (g lo hi : Nat → Bool) (a h : Nat) (hb : Bit g a (2 * h))
    (hlo : ∀ k < h, lo k = (g (a + k) && g (a + h + k))) (hhi : ∀ k < h, hi k = (g (a + k) || g (a + h + k))) :
    ((∀ k < h, lo k = false) ∧ Bit hi 0 h) ∨ (Bit lo 0 h ∧ (∀ k < h, hi k = true)) := by
  have main : ∀ (g lo hi : Nat → Bool) (x y : Nat), (∀ k < 2 * h, g (a + k) = decide (x ≤ k ∧ k < y)) →
      (∀ k < h, lo k = (g (a + k) && g (a + h + k))) → (∀ k < h, hi k = (g (a + k) || g (a + h + k))) →
      ((∀ k < h, lo k = false) ∧ Bit hi 0 h) ∨ (Bit lo 0 h ∧ (∀ k < h, hi k = true)) := by
    intro g lo hi x y hg hlo hhi
    have e1 : ∀ k < h, lo k = (decide (x ≤ k ∧ k < y) && decide (x ≤ h + k ∧ h + k < y)) := by
      intro k hk
      rw [hlo k hk, hg k (by omega), show a + h + k = a + (h + k) by omega, hg (h + k) (by omega)]
    have e2 : ∀ k < h, hi k = (decide (x ≤ k ∧ k < y) || decide (x ≤ h + k ∧ h + k < y)) := by
      intro k hk
      rw [hhi k hk, hg k (by omega), show a + h + k = a + (h + k) by omega, hg (h + k) (by omega)]
    by_cases c1 : y ≤ h
    · left
      refine ⟨fun k hk => ?_, true, x, y, fun k hk => ?_⟩
      · rw [e1 k hk, Bool.and_eq_false_iff]; right; rw [decide_eq_false_iff_not]; omega
      · rw [Nat.zero_add, e2 k hk]
        have : decide (x ≤ h + k ∧ h + k < y) = false := by rw [decide_eq_false_iff_not]; omega
        rw [this, Bool.or_false]
        split <;> simp_all
    · by_cases c2 : h ≤ x
      · left
        refine ⟨fun k hk => ?_, true, x - h, y - h, fun k hk => ?_⟩
        · rw [e1 k hk, Bool.and_eq_false_iff]; left; rw [decide_eq_false_iff_not]; omega
        · rw [Nat.zero_add, e2 k hk]
          have : decide (x ≤ k ∧ k < y) = false := by rw [decide_eq_false_iff_not]; omega
          rw [this, Bool.false_or]
          by_cases hc : x ≤ h + k ∧ h + k < y
          · rw [if_pos (by omega)]; simp [hc]
          · rw [if_neg (by omega)]; simp only [hc]; rfl
      · by_cases c3 : y - h ≤ x
        · left
          refine ⟨fun k hk => ?_, false, y - h, x, fun k hk => ?_⟩
          · rw [e1 k hk, Bool.and_eq_false_iff, decide_eq_false_iff_not, decide_eq_false_iff_not]; omega
          · rw [Nat.zero_add, e2 k hk]
            by_cases hc : y - h ≤ k ∧ k < x
            · rw [if_pos hc, Bool.or_eq_false_iff, decide_eq_false_iff_not, decide_eq_false_iff_not]; omega
            · rw [if_neg hc, Bool.not_false, Bool.or_eq_true, decide_eq_true_iff, decide_eq_true_iff]; omega
        · right
          refine ⟨⟨true, x, y - h, fun k hk => ?_⟩, fun k hk => ?_⟩
          · rw [Nat.zero_add, e1 k hk]
            by_cases hc : x ≤ k ∧ k < y - h
            · rw [if_pos hc, Bool.and_eq_true, decide_eq_true_iff, decide_eq_true_iff]; omega
            · rw [if_neg hc, Bool.not_true, Bool.and_eq_false_iff, decide_eq_false_iff_not, decide_eq_false_iff_not]; omega
          · rw [e2 k hk, Bool.or_eq_true, decide_eq_true_iff, decide_eq_true_iff]; omega
  obtain ⟨v, x, y, hv⟩ := hb
  cases v with
  | true =>
    exact main g lo hi x y (fun k hk => by rw [hv k hk]; split <;> simp_all) hlo hhi
  | false =>
    have := main (fun j => !g j) (fun j => !hi j) (fun j => !lo j) x y
      (fun k hk => by rw [hv k hk]; split <;> simp_all)
      (fun k hk => by rw [hhi k hk]; simp) (fun k hk => by rw [hlo k hk]; simp)
    rcases this with ⟨a1, a2⟩ | ⟨a1, a2⟩
    · right; exact ⟨Bit_not lo 0 h a2, fun k hk => by have := a1 k hk; simpa using this⟩
    · left; exact ⟨fun k hk => by have := a2 k hk; simpa using this, Bit_not hi 0 h a1⟩

/-- Sorted in direction `rv` on `[a, a+n)`. -/
def DirSorted (rv : Bool) (g : Nat → Bool) (a n : Nat) : Prop :=
  ∀ k k', k ≤ k' → k' < n → if rv then (g (a + k) = true → g (a + k') = true) else (g (a + k') = true → g (a + k) = true)

theorem passes_const (rvf : Nat → Bool) (v : Bool) : ∀ s B g, (∀ k < 2 ^ s, g (2 ^ s * B + k) = v) →
    ∀ k < 2 ^ s, passes rvf 1 s g (2 ^ s * B + k) = v := by
  intro s
  induction s with
  | zero => intro B g h k hk; exact h k hk
  | succ s ih =>
    intro B g h k hk
    have hp : 2 ^ (s + 1) = 2 ^ s + 2 ^ s := by rw [pow_succ]; ring
    have eix : ∀ s B k, ix 1 s B 0 k = 2 ^ s * B + k := by intro s B k; unfold ix; ring
    simp only [passes]
    have hpass : ∀ k < 2 ^ (s + 1), pass rvf (1 * 2 ^ s) g (2 ^ (s + 1) * B + k) = v := by
      intro k hk
      rw [← eix]
      rcases split_lt_pow s k hk with h1 | ⟨k', rfl, h1⟩
      · rw [pass_lo _ _ _ _ _ _ (by omega) h1, eix, eix, h k hk, h _ (by omega)]; cases v <;> simp
      · rw [pass_hi _ _ _ _ _ _ (by omega) h1, eix, eix, h k' (by omega), h _ hk]; cases v <;> simp
    rcases split_lt_pow s k hk with h1 | ⟨k', rfl, h1⟩
    · have e : ∀ j, 2 ^ (s + 1) * B + j = 2 ^ s * (2 * B) + j := by intro j; rw [pow_succ]; ring
      rw [e]
      exact ih (2 * B) _ (fun j hj => by rw [← e]; exact hpass j (by omega)) k h1
    · have e : ∀ j, 2 ^ (s + 1) * B + (2 ^ s + j) = 2 ^ s * (2 * B + 1) + j := by intro j; rw [pow_succ]; ring
      rw [e]
      exact ih (2 * B + 1) _ (fun j hj => by rw [← e]; exact hpass _ (by omega)) k' h1

/-- Bitonic merge. -/
theorem passes_sort (rvf : Nat → Bool) (rv : Bool) : ∀ s B g, (∀ k < 2 ^ s, rvf (2 ^ s * B + k) = rv) →
    Bit g (2 ^ s * B) (2 ^ s) → DirSorted rv (passes rvf 1 s g) (2 ^ s * B) (2 ^ s) := by
  intro s
  induction s with
  | zero =>
    intro B g _ _ k k' h1 h2
    have : k' = k := by simp at h2; omega
    subst this; split <;> exact id
  | succ s ih =>
    intro B g hrv hb
    have hp : 2 ^ (s + 1) = 2 ^ s + 2 ^ s := by rw [pow_succ]; ring
    have eix : ∀ s B k, ix 1 s B 0 k = 2 ^ s * B + k := by intro s B k; unfold ix; ring
    have elo : ∀ j, 2 ^ (s + 1) * B + j = 2 ^ s * (2 * B) + j := by intro j; rw [pow_succ]; ring
    have ehi : ∀ j, 2 ^ (s + 1) * B + (2 ^ s + j) = 2 ^ s * (2 * B + 1) + j := by intro j; rw [pow_succ]; ring
    simp only [passes]
    have plo : ∀ k < 2 ^ s, pass rvf (1 * 2 ^ s) g (2 ^ s * (2 * B) + k) =
        if rv then g (2 ^ (s + 1) * B + k) && g (2 ^ (s + 1) * B + 2 ^ s + k)
        else g (2 ^ (s + 1) * B + k) || g (2 ^ (s + 1) * B + 2 ^ s + k) := by
      intro k hk
      rw [← elo, ← eix, pass_lo _ _ _ _ _ _ (by omega) hk, eix, eix, hrv k (by omega), Nat.add_assoc]
    have phi : ∀ k < 2 ^ s, pass rvf (1 * 2 ^ s) g (2 ^ s * (2 * B + 1) + k) =
        if rv then g (2 ^ (s + 1) * B + k) || g (2 ^ (s + 1) * B + 2 ^ s + k)
        else g (2 ^ (s + 1) * B + k) && g (2 ^ (s + 1) * B + 2 ^ s + k) := by
      intro k hk
      rw [← ehi, ← eix, pass_hi _ _ _ _ _ _ (by omega) hk, eix, eix, hrv _ (by omega), Nat.add_assoc]
    generalize pass rvf (1 * 2 ^ s) g = g1 at plo phi
    have rlo : ∀ k < 2 ^ s, rvf (2 ^ s * (2 * B) + k) = rv := fun k hk => by rw [← elo]; exact hrv k (by omega)
    have rhi : ∀ k < 2 ^ s, rvf (2 ^ s * (2 * B + 1) + k) = rv := fun k hk => by rw [← ehi]; exact hrv _ (by omega)
    have shift : ∀ A, Bit (fun k => g1 (A + k)) 0 (2 ^ s) → Bit g1 A (2 ^ s) := by
      intro A ⟨v, x, y, h⟩
      exact ⟨v, x, y, fun k hk => by have := h k hk; simpa using this⟩
    have hb : Bit g (2 ^ (s + 1) * B) (2 * 2 ^ s) := by rw [← show 2 ^ (s + 1) = 2 * 2 ^ s by omega]; exact hb
    -- combine
    have comb : ∀ gg : Nat → Bool, DirSorted rv gg (2 ^ s * (2 * B)) (2 ^ s) → DirSorted rv gg (2 ^ s * (2 * B + 1)) (2 ^ s) →
        ((∀ k < 2 ^ s, gg (2 ^ s * (2 * B) + k) = !rv) ∨ (∀ k < 2 ^ s, gg (2 ^ s * (2 * B + 1) + k) = rv)) →
        DirSorted rv gg (2 ^ (s + 1) * B) (2 ^ (s + 1)) := by
      intro gg d1 d2 hc k k' hk hk'
      rcases split_lt_pow s k' hk' with h1 | ⟨j', rfl, h1⟩
      · rw [elo, elo]; exact d1 k k' hk h1
      · rcases split_lt_pow s k (by omega) with h2 | ⟨j, rfl, h2⟩
        · rw [elo, ehi]
          rcases hc with hc | hc
          · rw [hc k h2]; cases rv <;> simp
          · rw [hc j' h1]; cases rv <;> simp
        · rw [ehi, ehi]; exact d2 j j' (by omega) h1
    cases rv with
    | true =>
      simp only [if_true] at plo phi
      rcases half_cleaner g (fun k => g1 (2 ^ s * (2 * B) + k)) (fun k => g1 (2 ^ s * (2 * B + 1) + k)) _ _ hb plo phi with
        ⟨c1, c2⟩ | ⟨c1, c2⟩
      · exact comb _ (ih _ _ rlo (Bit_const _ _ _ _ c1)) (ih _ _ rhi (shift _ c2)) (Or.inl (passes_const rvf _ s _ _ c1))
      · exact comb _ (ih _ _ rlo (shift _ c1)) (ih _ _ rhi (Bit_const _ _ _ _ c2)) (Or.inr (passes_const rvf _ s _ _ c2))
    | false =>
      simp only [Bool.false_eq_true, if_false] at plo phi
      rcases half_cleaner g (fun k => g1 (2 ^ s * (2 * B + 1) + k)) (fun k => g1 (2 ^ s * (2 * B) + k)) _ _ hb phi plo with
        ⟨c1, c2⟩ | ⟨c1, c2⟩
      · exact comb _ (ih _ _ rlo (shift _ c2)) (ih _ _ rhi (Bit_const _ _ _ _ c1)) (Or.inr (passes_const rvf _ s _ _ c1))
      · exact comb _ (ih _ _ rlo (Bit_const _ _ _ _ c2)) (ih _ _ rhi (shift _ c1)) (Or.inl (passes_const rvf _ s _ _ c2))

/-- Ascending then descending is bitonic. -/
theorem Bit_of_sorted (g : Nat → Bool) (a n : Nat) (h1 : DirSorted true g a n) (h2 : DirSorted false g (a + n) n) :
    Bit g a (2 * n) := by
  -- counts of false / true
  have asc : ∀ n, DirSorted true g a n → ∃ x, x ≤ n ∧ ∀ k < n, g (a + k) = decide (x ≤ k) := by
    intro n
    induction n with
    | zero => intro _; exact ⟨0, by omega, fun k hk => by omega⟩
    | succ n ih =>
      intro h
      obtain ⟨x, hx, hs⟩ := ih (fun k k' a b => h k k' a (by omega))
      cases hn : g (a + n) with
      | true =>
        refine ⟨x, by omega, fun k hk => ?_⟩
        by_cases hkn : k = n
        · subst hkn; rw [hn]; simp [hx]
        · exact hs k (by omega)
      | false =>
        refine ⟨n + 1, by omega, fun k hk => ?_⟩
        have := h k n (by omega) (by omega)
        simp only [if_true] at this
        have hf : g (a + k) = false := by
          cases hk' : g (a + k) with
          | false => rfl
          | true => rw [this hk'] at hn; cases hn
        rw [hf]; symm; rw [decide_eq_false_iff_not]; omega
  have desc : ∀ n b, DirSorted false g b n → ∃ y, y ≤ n ∧ ∀ k < n, g (b + k) = decide (k < y) := by
    intro n b
    induction n with
    | zero => intro _; exact ⟨0, by omega, fun k hk => by omega⟩
    | succ n ih =>
      intro h
      obtain ⟨y, hy, hs⟩ := ih (fun k k' a b => h k k' a (by omega))
      cases hn : g (b + n) with
      | false =>
        refine ⟨y, by omega, fun k hk => ?_⟩
        by_cases hkn : k = n
        · subst hkn; rw [hn]; symm; rw [decide_eq_false_iff_not]; omega
        · exact hs k (by omega)
      | true =>
        refine ⟨n + 1, by omega, fun k hk => ?_⟩
        have := h k n (by omega) (by omega)
        simp only [Bool.false_eq_true, if_false] at this
        rw [this hn]; symm; rw [decide_eq_true_iff]; exact hk
  obtain ⟨x, hx, hxs⟩ := asc n h1
  obtain ⟨y, hy, hys⟩ := desc n _ h2
  refine ⟨true, x, n + y, fun k hk => ?_⟩
  by_cases hkn : k < n
  · rw [hxs k hkn]
    by_cases hxk : x ≤ k
    · rw [if_pos (by omega)]; simp [hxk]
    · rw [if_neg (by omega)]; simp [hxk]
  · obtain ⟨j, rfl⟩ : ∃ j, k = n + j := ⟨k - n, by omega⟩
    rw [← Nat.add_assoc, hys j (by omega)]
    by_cases hj : j < y
    · rw [if_pos (by omega)]; simp [hj]
    · rw [if_neg (by omega)]; simp [hj]

end Shamrock
