import Mathlib.Analysis.Calculus.Deriv.Pow
import Mathlib.Analysis.Calculus.Deriv.Mul
import Mathlib.Analysis.Calculus.Deriv.Add
import Mathlib.MeasureTheory.Integral.IntervalIntegral.FundThmCalculus
import Mathlib.Tactic.Positivity
import Mathlib.Tactic.FieldSimp
import Mathlib.Tactic.LinearCombination

/-!
# Piecewise polynomials with rational coefficients

A small calculus used to prove the kernel theorems: every check is a computation on rational numbers
that the kernel evaluates, every soundness lemma speaks of the real function.
-/

namespace Shamrock.Kern

/-- Value of a coefficient list at a real number. -/
noncomputable def ev : List ℚ → ℝ → ℝ
  | [], _ => 0
  | c :: p, x => (c : ℝ) + x * ev p x

/-- Value of a coefficient list at a rational number. -/
def evQ : List ℚ → ℚ → ℚ
  | [], _ => 0
  | c :: p, x => c + x * evQ p x

theorem ev_cast (p : List ℚ) (a : ℚ) : ev p (a : ℝ) = ((evQ p a : ℚ) : ℝ) := by
  induction p with
  | nil => simp [ev, evQ]
  | cons c p ih => simp [ev, evQ, ih]

def padd : List ℚ → List ℚ → List ℚ
  | [], q => q
  | p, [] => p
  | a :: p, b :: q => (a + b) :: padd p q

theorem ev_padd (p q : List ℚ) (x : ℝ) : ev (padd p q) x = ev p x + ev q x := by
  induction p generalizing q with
  | nil => simp [padd, ev]
  | cons a p ih =>
    cases q with
    | nil => simp [padd, ev]
    | cons b q => simp only [padd, ev, ih]; push_cast; ring

def psc (c : ℚ) (p : List ℚ) : List ℚ := p.map (c * ·)

theorem ev_psc (c : ℚ) (p : List ℚ) (x : ℝ) : ev (psc c p) x = c * ev p x := by
  induction p with
  | nil => simp [psc, ev]
  | cons a p ih =>
    simp only [psc, List.map_cons, ev] at ih ⊢
    rw [ih]; push_cast; ring

/-- Multiplication by the variable. -/
def pX (p : List ℚ) : List ℚ := 0 :: p

theorem ev_pX (p : List ℚ) (x : ℝ) : ev (pX p) x = x * ev p x := by simp [pX, ev]

/-- Derivative. -/
def pD : List ℚ → List ℚ
  | [] => []
  | _ :: p => padd p (pX (pD p))

theorem hasDerivAt_ev (p : List ℚ) (x : ℝ) : HasDerivAt (ev p) (ev (pD p) x) x := by
  induction p with
  | nil => simpa [ev, pD] using hasDerivAt_const x (0 : ℝ)
  | cons c p ih =>
    have h := ((hasDerivAt_id x).mul ih).const_add (c : ℝ)
    have e : ev (pD (c :: p)) x = 1 * ev p x + id x * ev (pD p) x := by
      simp only [pD, ev_padd, ev_pX, id]; ring
    rw [e]
    exact h

/-- Two lists with the same polynomial. -/
def peq (p q : List ℚ) : Bool := (padd p (psc (-1) q)).all (· == 0)

theorem ev_zero (p : List ℚ) (h : p.all (· == 0) = true) (x : ℝ) : ev p x = 0 := by
  induction p with
  | nil => rfl
  | cons a p ih =>
    simp only [List.all_cons, Bool.and_eq_true, beq_iff_eq] at h
    simp [ev, ih h.2, h.1]

theorem peq_ev {p q : List ℚ} (h : peq p q = true) (x : ℝ) : ev p x = ev q x := by
  have h0 := ev_zero _ h x
  rw [ev_padd, ev_psc] at h0
  push_cast at h0
  linarith

/-! ### Piecewise polynomials -/

/-- Pieces with their upper ends (the end is not part of the piece); `last` holds from the last end
on. -/
noncomputable def evPW : List (ℚ × List ℚ) → List ℚ → ℝ → ℝ
  | [], l, x => ev l x
  | (a, p) :: t, l, x => if x < (a : ℝ) then ev p x else evPW t l x

/-- The polynomial that holds first. -/
def firstP : List (ℚ × List ℚ) → List ℚ → List ℚ
  | [], l => l
  | (_, p) :: _, _ => p

def dPW (t : List (ℚ × List ℚ)) : List (ℚ × List ℚ) := t.map fun ap => (ap.1, pD ap.2)

def firstLt (a : ℚ) : List (ℚ × List ℚ) → Bool
  | [] => true
  | (b, _) :: _ => a < b

/-- Ends increase, and neighbouring pieces agree at the common end. -/
def contPW : List (ℚ × List ℚ) → List ℚ → Bool
  | [], _ => true
  | (a, p) :: t, l =>
    firstLt a t && (evQ p a == evQ (firstP t l) a) && contPW t l

theorem evPW_first {t : List (ℚ × List ℚ)} {l : List ℚ} {a : ℚ} (h : firstLt a t = true) :
    evPW t l (a : ℝ) = ev (firstP t l) a := by
  cases t with
  | nil => rfl
  | cons bp t =>
    obtain ⟨b, p⟩ := bp
    simp only [firstLt, decide_eq_true_eq] at h
    have : (a : ℝ) < (b : ℝ) := by exact_mod_cast h
    simp [evPW, firstP, this]

theorem firstLt_dPW (a : ℚ) (t : List (ℚ × List ℚ)) : firstLt a (dPW t) = firstLt a t := by
  cases t <;> rfl

/-- Gluing two differentiable functions. -/
theorem glue {f g : ℝ → ℝ} {a f' x : ℝ} {g' : ℝ} (hf : HasDerivAt f f' x)
    (hg : HasDerivAt g g' x) (ha : x = a → f a = g a ∧ f' = g') :
    HasDerivAt (fun y => if y < a then f y else g y) (if x < a then f' else g') x := by
  rcases lt_trichotomy x a with h | h | h
  · rw [if_pos h]
    refine hf.congr_of_eventuallyEq ?_
    filter_upwards [eventually_lt_nhds h] with y hy
    rw [if_pos hy]
  · subst h
    obtain ⟨h0, h1⟩ := ha rfl
    rw [if_neg (lt_irrefl _)]
    have hl : HasDerivWithinAt (fun y => if y < x then f y else g y) g' (Set.Iic x) x := by
      refine (h1 ▸ hf).hasDerivWithinAt.congr ?_ ?_
      · intro y hy
        rcases lt_or_eq_of_le (Set.mem_Iic.1 hy) with h | h
        · simp [h]
        · simp [h, h0]
      · simp [h0]
    have hr : HasDerivWithinAt (fun y => if y < x then f y else g y) g' (Set.Ici x) x := by
      refine hg.hasDerivWithinAt.congr ?_ ?_
      · intro y hy
        simp [not_lt.2 (Set.mem_Ici.1 hy)]
      · simp
    have := hl.union hr
    rw [Set.Iic_union_Ici] at this
    exact this.hasDerivAt Filter.univ_mem
  · rw [if_neg (not_lt.2 h.le)]
    refine hg.congr_of_eventuallyEq ?_
    filter_upwards [eventually_gt_nhds h] with y hy
    rw [if_neg (not_lt.2 (le_of_lt hy))]

theorem firstP_dPW (t : List (ℚ × List ℚ)) (l : List ℚ) :
    firstP (dPW t) (pD l) = pD (firstP t l) := by cases t <;> rfl

/-- A table whose values and derivatives both match is differentiable everywhere. -/
theorem hasDerivAt_evPW (t : List (ℚ × List ℚ)) (l : List ℚ) (h : contPW t l = true)
    (h' : contPW (dPW t) (pD l) = true) (x : ℝ) :
    HasDerivAt (evPW t l) (evPW (dPW t) (pD l) x) x := by
  induction t with
  | nil => exact hasDerivAt_ev l x
  | cons ap t ih =>
    obtain ⟨a, p⟩ := ap
    simp only [contPW, Bool.and_eq_true, beq_iff_eq] at h
    rw [dPW, List.map_cons, ← dPW] at h'
    simp only [contPW, Bool.and_eq_true, beq_iff_eq] at h'
    refine glue (hasDerivAt_ev p x) (ih h.2 h'.2) ?_
    intro hx
    subst hx
    constructor
    · rw [evPW_first h.1.1, ev_cast, ev_cast, h.1.2]
    · show ev (pD p) _ = evPW (dPW t) _ _
      rw [evPW_first h'.1.1, ev_cast, ev_cast, h'.1.2]

/-- Derivative off the ends of the pieces. -/
theorem hasDerivAt_evPW_off (t : List (ℚ × List ℚ)) (l : List ℚ) (x : ℝ)
    (hx : ∀ ap ∈ t, x ≠ (ap.1 : ℝ)) : HasDerivAt (evPW t l) (evPW (dPW t) (pD l) x) x := by
  induction t with
  | nil => exact hasDerivAt_ev l x
  | cons ap t ih =>
    obtain ⟨a, p⟩ := ap
    exact glue (hasDerivAt_ev p x) (ih fun ap h => hx ap (List.mem_cons_of_mem _ h))
      fun h => absurd h (hx (a, p) List.mem_cons_self)

theorem evPW_mono_last {t : List (ℚ × List ℚ)} {l : List ℚ} {x : ℝ}
    (h : ∀ ap ∈ t, (ap.1 : ℝ) ≤ x) : evPW t l x = ev l x := by
  induction t with
  | nil => rfl
  | cons ap t ih =>
    obtain ⟨a, p⟩ := ap
    have := h (a, p) List.mem_cons_self
    rw [evPW, if_neg (not_lt.2 this), ih fun ap hp => h ap (List.mem_cons_of_mem _ hp)]

/-! ### Integrals -/

/-- Coefficients of the antiderivative, `k` being the rank of the first one. -/
def pI : ℚ → List ℚ → List ℚ
  | _, [] => []
  | k, c :: p => c / k :: pI (k + 1) p

/-- Antiderivative vanishing at `0`. -/
def pA (p : List ℚ) : List ℚ := 0 :: pI 1 p

/-- Table of the antiderivative with value `acc` at `lo`. -/
def antiPW : ℚ → ℚ → List (ℚ × List ℚ) → List (ℚ × List ℚ)
  | _, _, [] => []
  | lo, acc, (a, p) :: t =>
    let P := padd [acc - evQ (pA p) lo] (pA p)
    (a, P) :: antiPW a (evQ P a) t

/-- Same ends, same polynomials. -/
def eqPW : List (ℚ × List ℚ) → List (ℚ × List ℚ) → Bool
  | [], [] => true
  | (a, p) :: t, (b, q) :: u => a == b && peq p q && eqPW t u
  | _, _ => false

theorem eqPW_ok (t u : List (ℚ × List ℚ)) (l m : List ℚ) (h : eqPW t u = true)
    (hl : peq l m = true) (x : ℝ) : evPW t l x = evPW u m x := by
  induction t generalizing u with
  | nil =>
    cases u with
    | nil => exact peq_ev hl x
    | cons _ _ => simp [eqPW] at h
  | cons ap t ih =>
    obtain ⟨a, p⟩ := ap
    cases u with
    | nil => simp [eqPW] at h
    | cons bq u =>
      obtain ⟨b, q⟩ := bq
      simp only [eqPW, Bool.and_eq_true, beq_iff_eq] at h
      rw [evPW, evPW, ih u h.2, peq_ev h.1.2, h.1.1]

/-- Apply a transformation of polynomials to every piece. -/
def mapPW (g : List ℚ → List ℚ) (t : List (ℚ × List ℚ)) : List (ℚ × List ℚ) :=
  t.map fun ap => (ap.1, g ap.2)

theorem evPW_map (g : List ℚ → List ℚ) (G : ℝ → ℝ → ℝ) (hg : ∀ p x, ev (g p) x = G x (ev p x))
    (t : List (ℚ × List ℚ)) (l m : List ℚ) (x : ℝ) (hl : ev m x = G x (ev l x)) :
    evPW (mapPW g t) m x = G x (evPW t l x) := by
  induction t with
  | nil => exact hl
  | cons ap t ih =>
    obtain ⟨a, p⟩ := ap
    show (if x < (a : ℝ) then ev (g p) x else evPW (mapPW g t) m x) = _
    rw [evPW, ih, hg]
    split_ifs <;> rfl

theorem evPW_continuous (t : List (ℚ × List ℚ)) (l : List ℚ) (h : contPW t l = true) :
    Continuous (evPW t l) := by
  induction t with
  | nil => exact continuous_iff_continuousAt.2 fun x => (hasDerivAt_ev l x).continuousAt
  | cons ap t ih =>
    obtain ⟨a, p⟩ := ap
    simp only [contPW, Bool.and_eq_true, beq_iff_eq] at h
    have hp : Continuous (ev p) :=
      continuous_iff_continuousAt.2 fun x => (hasDerivAt_ev p x).continuousAt
    refine Continuous.if ?_ hp (ih h.2)
    intro x hx
    have hx' : x = a := by
      have : {x : ℝ | x < (a : ℝ)} = Set.Iio (a : ℝ) := rfl
      rw [this, frontier_Iio] at hx
      exact hx
    subst hx'
    rw [evPW_first h.1.1, ev_cast, ev_cast, h.1.2]

theorem contPW_of_eq (t T : List (ℚ × List ℚ)) (l L : List ℚ) (hT : contPW T L = true)
    (ht : contPW t l = true) (he : eqPW (dPW T) t = true) (hl : peq (pD L) l = true) :
    contPW (dPW T) (pD L) = true := by
  induction T generalizing t with
  | nil => rfl
  | cons ap T ih =>
    obtain ⟨a, P⟩ := ap
    cases t with
    | nil => simp [dPW, eqPW] at he
    | cons bq t =>
      obtain ⟨b, q⟩ := bq
      rw [dPW, List.map_cons, ← dPW] at he ⊢
      simp only [eqPW, Bool.and_eq_true, beq_iff_eq] at he
      simp only [contPW, Bool.and_eq_true, beq_iff_eq] at ht hT ⊢
      refine ⟨⟨by rw [firstLt_dPW]; exact hT.1.1, ?_⟩, ih t hT.2 ht.2 he.2⟩
      have e1 : ev (pD P) (a : ℝ) = ev q a := peq_ev he.1.2 _
      have e2 : evPW (dPW T) (pD L) (a : ℝ) = evPW t l a := eqPW_ok _ _ _ _ he.2 hl _
      rw [evPW_first (by rw [firstLt_dPW]; exact hT.1.1),
        evPW_first (by rw [he.1.1]; exact ht.1.1)] at e2
      have e3 := ht.1.2
      rw [← he.1.1] at e3
      rw [ev_cast, ev_cast] at e1 e2
      have e1' : evQ (pD P) a = evQ q a := by exact_mod_cast e1
      have e2' : evQ (firstP (dPW T) (pD L)) a = evQ (firstP t l) a := by exact_mod_cast e2
      show evQ (pD P) a = _
      rw [e1', e2', e3]

/-- A table checked to be an antiderivative gives the integrals. -/
theorem integral_evPW (t T : List (ℚ × List ℚ)) (l L : List ℚ) (ht : contPW t l = true)
    (hT : contPW T L = true) (he : eqPW (dPW T) t = true) (hl : peq (pD L) l = true) (a b : ℝ) :
    ∫ x in a..b, evPW t l x = evPW T L b - evPW T L a := by
  refine intervalIntegral.integral_eq_sub_of_hasDerivAt ?_
    ((evPW_continuous t l ht).intervalIntegrable a b)
  intro x hx
  rw [← eqPW_ok _ _ _ _ he hl]
  refine hasDerivAt_evPW T L hT ?_ x
  exact contPW_of_eq t T l L hT ht he hl

/-! ### Sign on an interval -/

def pmul : List ℚ → List ℚ → List ℚ
  | [], _ => []
  | a :: p, q => padd (psc a q) (pX (pmul p q))

theorem ev_pmul (p q : List ℚ) (x : ℝ) : ev (pmul p q) x = ev p x * ev q x := by
  induction p with
  | nil => simp [pmul, ev]
  | cons a p ih => simp only [pmul, ev_padd, ev_psc, ev_pX, ih, ev]; ring

def ppow (p : List ℚ) : Nat → List ℚ
  | 0 => [1]
  | n + 1 => pmul p (ppow p n)

theorem ev_ppow (p : List ℚ) (n : Nat) (x : ℝ) : ev (ppow p n) x = ev p x ^ n := by
  induction n with
  | zero => simp [ppow, ev]
  | succ n ih => simp only [ppow, ev_pmul, ih]; ring

/-- Numerator of `p ((a + b u) / (1 + u))` over `(1 + u) ^ p.length`. -/
def mob (a b : ℚ) : List ℚ → List ℚ
  | [] => []
  | c :: p => padd (psc c (ppow [1, 1] (p.length + 1))) (pmul [a, b] (mob a b p))

theorem ev_mob (a b : ℚ) (p : List ℚ) (u : ℝ) (hu : 0 ≤ u) :
    ev (mob a b p) u = (1 + u) ^ p.length * ev p ((a + b * u) / (1 + u)) := by
  have h1 : (1 + u) ≠ 0 := by positivity
  induction p with
  | nil => simp [mob, ev]
  | cons c p ih =>
    simp only [mob, ev_padd, ev_psc, ev_ppow, ev_pmul, ih, ev, List.length_cons]
    push_cast
    field_simp
    ring

theorem ev_nonneg (p : List ℚ) (h : p.all (0 ≤ ·) = true) (u : ℝ) (hu : 0 ≤ u) : 0 ≤ ev p u := by
  induction p with
  | nil => simp [ev]
  | cons a p ih =>
    simp only [List.all_cons, Bool.and_eq_true, decide_eq_true_eq] at h
    have h1 : (0 : ℝ) ≤ (a : ℝ) := by exact_mod_cast h.1
    have h2 := ih (by simpa using h.2)
    rw [ev]; positivity

theorem ev_pos (p : List ℚ) (h : p.all (0 ≤ ·) = true) (hp : p.any (0 < ·) = true) (u : ℝ)
    (hu : 0 < u) : 0 < ev p u := by
  induction p with
  | nil => simp at hp
  | cons a p ih =>
    simp only [List.all_cons, Bool.and_eq_true, decide_eq_true_eq] at h
    have h1 : (0 : ℝ) ≤ (a : ℝ) := by exact_mod_cast h.1
    have h2 := ev_nonneg p (by simpa using h.2) u hu.le
    rw [ev]
    simp only [List.any_cons, Bool.or_eq_true, decide_eq_true_eq] at hp
    rcases hp with hp | hp
    · have : (0 : ℝ) < (a : ℝ) := by exact_mod_cast hp
      positivity
    · have := ih (by simpa using h.2) hp
      positivity

theorem mob_at (a b : ℚ) (p : List ℚ) (x : ℝ) (ha : (a : ℝ) ≤ x) (hb : x < (b : ℝ)) :
    ∃ u c : ℝ, 0 ≤ u ∧ 0 < c ∧ ((a : ℝ) < x → 0 < u) ∧ ev (mob a b p) u = c * ev p x := by
  have h1 : 0 < (b : ℝ) - x := by linarith
  have h2 : 0 ≤ x - (a : ℝ) := by linarith
  have h3 : 0 < (b : ℝ) - a := by linarith
  refine ⟨(x - a) / (b - x), (1 + (x - a) / (b - x)) ^ p.length, by positivity, by positivity,
    fun h => div_pos (by linarith) h1, ?_⟩
  rw [ev_mob _ _ _ _ (by positivity)]
  congr 2
  have e : 1 + (x - (a : ℝ)) / (b - x) = (b - a) / (b - x) := by field_simp; ring
  rw [e]
  field_simp
  ring

/-- Every piece is non-negative from `lo` on. -/
def nonnegPW : ℚ → List (ℚ × List ℚ) → Bool
  | _, [] => true
  | lo, (a, p) :: t => (mob lo a p).all (0 ≤ ·) && nonnegPW a t

theorem nonnegPW_ok (t : List (ℚ × List ℚ)) (lo : ℚ) (h : nonnegPW lo t = true) (x : ℝ)
    (hx : (lo : ℝ) ≤ x) : 0 ≤ evPW t [] x := by
  induction t generalizing lo with
  | nil => simp [evPW, ev]
  | cons ap t ih =>
    obtain ⟨a, p⟩ := ap
    simp only [nonnegPW, Bool.and_eq_true] at h
    rw [evPW]
    split_ifs with hxa
    · obtain ⟨u, c, hu, hc, _, e⟩ := mob_at lo a p x hx hxa
      have := ev_nonneg _ h.1 u hu
      rw [e] at this
      exact (mul_nonneg_iff_of_pos_left hc).1 this
    · exact ih a h.2 (not_lt.1 hxa)

/-- Every piece is positive inside, and the inner ends are positive. -/
def posPW : ℚ → List (ℚ × List ℚ) → Bool
  | _, [] => true
  | lo, (a, p) :: t => (mob lo a p).all (0 ≤ ·) && (mob lo a p).any (0 < ·) &&
      (match t with
        | [] => true
        | (b, q) :: _ => 0 < evQ q a && a < b) && posPW a t

theorem posPW_ok (t : List (ℚ × List ℚ)) (lo R : ℚ) (h : posPW lo t = true)
    (hR : ∀ ap ∈ t.getLast?, ap.1 = R) (x : ℝ)
    (hx : (lo : ℝ) < x ∨ ((lo : ℝ) = x ∧ 0 < evPW t [] x)) (hxR : x < R) (ht : t ≠ []) :
    0 < evPW t [] x := by
  induction t generalizing lo with
  | nil => exact absurd rfl ht
  | cons ap t ih =>
    obtain ⟨a, p⟩ := ap
    rcases hx with hx | hx
    swap
    · exact hx.2
    simp only [posPW, Bool.and_eq_true] at h
    rw [evPW]
    split_ifs with hxa
    · obtain ⟨u, c, hu, hc, hu', e⟩ := mob_at lo a p x hx.le hxa
      have := ev_pos _ h.1.1.1 h.1.1.2 u (hu' hx)
      rw [e] at this
      exact (mul_pos_iff_of_pos_left hc).1 this
    · cases t with
      | nil =>
        have := hR (a, p) (by simp)
        simp only at this
        subst this
        exact absurd hxR hxa
      | cons bq t =>
        obtain ⟨b, q⟩ := bq
        have h3 := h.1.2
        simp only [Bool.and_eq_true, decide_eq_true_eq] at h3
        refine ih a h.2 ?_ ?_ (by simp)
        · intro ap hap
          exact hR ap (by rw [List.getLast?_cons_cons]; exact hap)
        · rcases eq_or_lt_of_le (not_lt.1 hxa) with e | e
          · refine Or.inr ⟨e, ?_⟩
            have hab : x < (b : ℝ) := by rw [← e]; exact_mod_cast h3.2
            rw [evPW, if_pos hab, ← e, ev_cast]
            exact_mod_cast h3.1
          · exact Or.inl e

end Shamrock.Kern
