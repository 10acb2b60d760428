import Verif.Model.Search
import Mathlib.Data.List.Sort
import Mathlib.Order.Basic
import Mathlib.Order.Lattice
/-! C13: binary searches. -/
namespace Shamrock

/-- The range `[first, last)` of `key` is non decreasing (specification). -/
def SortedOn {α} [LinearOrder α] (key : List α) (first last : Nat) : Prop :=
  ∀ (i j : Nat) (a b : α), first ≤ i → i ≤ j → j < last → key[i]? = some a → key[j]? = some b → a ≤ b

/-- `r` is the boundary of the predicate `p` in `[first, last)`: `p` holds before, fails from `r` on (specification). -/
def IsBoundary {α} (p : α → Prop) (key : List α) (first last r : Nat) : Prop :=
  first ≤ r ∧ r ≤ last ∧ (∀ (i : Nat) (a : α), first ≤ i → i < r → key[i]? = some a → p a) ∧
    (∀ (i : Nat) (a : α), r ≤ i → i < last → key[i]? = some a → ¬ p a)

theorem lowerBoundLoop_spec {α} [LinearOrder α] (key : List α) (value : α) (F L : Nat) (hL : L ≤ key.length)
    (h32 : L < 2 ^ 32) (hs : SortedOn key F L) :
    ∀ (length first : Nat), F ≤ first → first + length ≤ L →
      (∀ (i : Nat) (a : α), F ≤ i → i < first → key[i]? = some a → a < value) →
      (∀ (i : Nat) (a : α), first + length ≤ i → i < L → key[i]? = some a → ¬ a < value) →
      ∃ r, lowerBoundLoop key value first length = some r ∧ IsBoundary (· < value) key F L r := by
  intro length
  induction length using Nat.strongRecOn with
  | _ length ih =>
    intro first hF hle hlo hhi
    unfold lowerBoundLoop
    by_cases hp : 0 < length
    · rw [if_pos hp]
      have e1 : u32add first (length / 2) = first + length / 2 := by unfold u32add; omega
      have e2 : u32add first (u32add (length / 2) (length % 2)) = first + length / 2 + length % 2 := by
        unfold u32add; omega
      have hlt : first + length / 2 < key.length := by omega
      simp only [e1, e2, List.getElem?_eq_getElem hlt, Option.bind_eq_bind, Option.bind_some]
      have hk : key[first + length / 2]? = some key[first + length / 2] := List.getElem?_eq_getElem hlt
      split
      · rename_i hlt2
        apply ih _ (by omega) _ (by omega) (by omega)
        · intro i a h1 h2 h3
          by_cases hi : i < first
          · exact hlo i a h1 hi h3
          · have : a ≤ key[first + length / 2] := by
              by_cases hq : i ≤ first + length / 2
              · exact hs i _ a _ h1 hq (by omega) h3 hk
              · omega
            exact lt_of_le_of_lt this hlt2
        · intro i a h1 h2 h3
          exact hhi i a (by omega) h2 h3
      · rename_i hge
        apply ih _ (by omega) _ (by omega) (by omega) hlo
        intro i a h1 h2 h3 hc
        exact hge (lt_of_le_of_lt (hs _ i _ a (by omega) h1 h2 hk h3) hc)
    · rw [if_neg hp]
      have : length = 0 := by omega
      subst this
      exact ⟨first, rfl, hF, by omega, hlo, fun i a h1 h2 h3 => hhi i a (by omega) h2 h3⟩

theorem upperBoundLoop_spec {α} [LinearOrder α] (key : List α) (value : α) (F L : Nat) (hL : L ≤ key.length)
    (h32 : L < 2 ^ 32) (hs : SortedOn key F L) :
    ∀ (length first : Nat), F ≤ first → first + length ≤ L →
      (∀ (i : Nat) (a : α), F ≤ i → i < first → key[i]? = some a → a ≤ value) →
      (∀ (i : Nat) (a : α), first + length ≤ i → i < L → key[i]? = some a → ¬ a ≤ value) →
      ∃ r, upperBoundLoop key value first length = some r ∧ IsBoundary (· ≤ value) key F L r := by
  intro length
  induction length using Nat.strongRecOn with
  | _ length ih =>
    intro first hF hle hlo hhi
    unfold upperBoundLoop
    by_cases hp : 0 < length
    · rw [if_pos hp]
      have e1 : u32add first (length / 2) = first + length / 2 := by unfold u32add; omega
      have e2 : u32add first (u32add (length / 2) (length % 2)) = first + length / 2 + length % 2 := by
        unfold u32add; omega
      have hlt : first + length / 2 < key.length := by omega
      simp only [e1, e2, List.getElem?_eq_getElem hlt, Option.bind_eq_bind, Option.bind_some]
      have hk : key[first + length / 2]? = some key[first + length / 2] := List.getElem?_eq_getElem hlt
      split
      · rename_i hlt2
        apply ih _ (by omega) _ (by omega) (by omega)
        · intro i a h1 h2 h3
          by_cases hi : i < first
          · exact hlo i a h1 hi h3
          · have : a ≤ key[first + length / 2] := by
              by_cases hq : i ≤ first + length / 2
              · exact hs i _ a _ h1 hq (by omega) h3 hk
              · omega
            exact le_trans this hlt2
        · intro i a h1 h2 h3
          exact hhi i a (by omega) h2 h3
      · rename_i hge
        apply ih _ (by omega) _ (by omega) (by omega) hlo
        intro i a h1 h2 h3 hc
        exact hge (le_trans (hs _ i _ a (by omega) h1 h2 hk h3) hc)
    · rw [if_neg hp]
      have : length = 0 := by omega
      subst this
      exact ⟨first, rfl, hF, by omega, hlo, fun i a h1 h2 h3 => hhi i a (by omega) h2 h3⟩

/-- C13: on a sorted sub range the lower bound search reads only inside the array and returns the first index whose key is
`≥ value` (or `last`). -/
theorem C13_lower_bound {α} [LinearOrder α] (key : List α) (first last : Nat) (value : α) (h1 : first ≤ last)
    (h2 : last ≤ key.length) (h3 : last < 2 ^ 32) (hs : SortedOn key first last) :
    ∃ r, lowerBound key first last value = some r ∧ IsBoundary (· < value) key first last r := by
  have e : u32sub last first = last - first := by unfold u32sub; omega
  unfold lowerBound; rw [e]
  apply lowerBoundLoop_spec key value first last h2 h3 hs _ _ (le_refl _) (by omega)
  · intro i a h h'; omega
  · intro i a h h'; omega

/-- C13: same for the upper bound search: first index whose key is `> value`. -/
theorem C13_upper_bound {α} [LinearOrder α] (key : List α) (first last : Nat) (value : α) (h1 : first ≤ last)
    (h2 : last ≤ key.length) (h3 : last < 2 ^ 32) (hs : SortedOn key first last) :
    ∃ r, upperBound key first last value = some r ∧ IsBoundary (· ≤ value) key first last r := by
  have e : u32sub last first = last - first := by unfold u32sub; omega
  unfold upperBound; rw [e]
  apply upperBoundLoop_spec key value first last h2 h3 hs _ _ (le_refl _) (by omega)
  · intro i a h h'; omega
  · intro i a h h'; omega

/-- C13: the boundary is unique, so the searches are fully specified. -/
theorem C13_boundary_unique {α} (p : α → Prop) (key : List α) (first last r r' : Nat) (h2 : last ≤ key.length)
    (h : IsBoundary p key first last r) (h' : IsBoundary p key first last r') : r = r' := by
  obtain ⟨a1, a2, a3, a4⟩ := h
  obtain ⟨b1, b2, b3, b4⟩ := h'
  rcases Nat.lt_trichotomy r r' with hlt | heq | hgt
  · have hk : key[r]? = some (key[r]'(by omega)) := List.getElem?_eq_getElem (by omega)
    exact absurd (b3 r _ a1 hlt hk) (a4 r _ (le_refl _) (by omega) hk)
  · exact heq
  · have hk : key[r']? = some (key[r']'(by omega)) := List.getElem?_eq_getElem (by omega)
    exact absurd (a3 r' _ b1 hgt hk) (b4 r' _ (le_refl _) (by omega) hk)

/-- C13: with the documented preconditions, `binary_range_search` returns two valid indices of the range enclosing
`[vmin, vmax]` and no tighter enclosing pair exists: `inf` is the first index with key equal to `vmin` when there is one, else
the last with a smaller key; `sup` is the last index with key equal to `vmax` when there is one, else the first with a larger
key. -/
theorem C13_range_search {α} [LinearOrder α] (key : List α) (first last : Nat) (vmin vmax : α) (h1 : first < last)
    (h2 : last ≤ key.length) (h3 : last < 2 ^ 32) (hs : SortedOn key first last) (hv : vmin ≤ vmax)
    (hlo : ∀ a, key[first]? = some a → a ≤ vmin) (hhi : ∀ a, key[last - 1]? = some a → vmax ≤ a) :
    ∃ inf sup ki ks, binaryRangeSearch key first last vmin vmax = some (inf, sup) ∧ first ≤ inf ∧ inf < last ∧ first ≤ sup ∧
      sup < last ∧ key[inf]? = some ki ∧ key[sup]? = some ks ∧ ki ≤ vmin ∧ vmax ≤ ks ∧
      (∀ (i : Nat) (a : α), inf < i → i < last → key[i]? = some a → ki < vmin → vmin < a) ∧
      (∀ (i : Nat) (a : α), first ≤ i → i < inf → key[i]? = some a → a < vmin) ∧
      (∀ (i : Nat) (a : α), first ≤ i → i < sup → key[i]? = some a → vmax < ks → a < vmax) ∧
      (∀ (i : Nat) (a : α), sup < i → i < last → key[i]? = some a → vmax < a) := by
  have gk : ∀ i (h : i < last), key[i]? = some (key[i]'(by omega)) := fun i h => List.getElem?_eq_getElem (by omega)
  obtain ⟨r, hr, r1, r2, r3, r4⟩ := C13_lower_bound key first last vmin (by omega) h2 h3 hs
  obtain ⟨q, hq, q1, q2, q3, q4⟩ := C13_upper_bound key first last vmax (by omega) h2 h3 hs
  have hf := hlo _ (gk first h1)
  have hl := hhi _ (gk (last - 1) (by omega))
  have hrl : r < last := by
    by_contra hc
    exact absurd (r3 (last - 1) _ (by omega) (by omega) (gk _ (by omega))) (not_lt.2 (le_trans hv hl))
  have hqf : first < q := by
    by_contra hc
    exact q4 first _ (by omega) h1 (gk _ h1) (le_trans hf hv)
  have u1 : ∀ x, x < 2 ^ 32 → u32sub x 0 = x := by intro x hx; unfold u32sub; omega
  have u2 : ∀ x, 0 < x → x < 2 ^ 32 → u32sub x 1 = x - 1 := by intro x h0 hx; unfold u32sub; omega
  have hinf : ∃ inf ki, rangeAdjInf key first last vmin r = some inf ∧ first ≤ inf ∧ inf < last ∧ key[inf]? = some ki ∧ ki ≤ vmin ∧
      (∀ (i : Nat) (a : α), inf < i → i < last → key[i]? = some a → ki < vmin → vmin < a) ∧
      (∀ (i : Nat) (a : α), first ≤ i → i < inf → key[i]? = some a → a < vmin) := by
    unfold rangeAdjInf
    by_cases hc : first < r
    · rw [if_pos ⟨hc, hrl⟩, gk r hrl]
      simp only [Option.map_some]
      by_cases hv : vmin < key[r]
      · refine ⟨r - 1, key[r - 1]'(by omega), ?_, by omega, by omega, gk _ (by omega), ?_, ?_, ?_⟩
        · rw [if_pos hv, u2 r (by omega) (by omega)]
        · exact le_of_lt (r3 (r - 1) _ (by omega) (by omega) (gk _ (by omega)))
        · intro i a h4 h5 h6 _
          exact lt_of_lt_of_le hv (hs r i _ a (by omega) (by omega) h5 (gk r hrl) h6)
        · intro i a h4 h5 h6
          exact r3 i a h4 (by omega) h6
      · have hk : key[r] = vmin := le_antisymm (not_lt.1 hv) (not_lt.1 (r4 r _ (le_refl _) hrl (gk r hrl)))
        refine ⟨r, key[r]'(by omega), ?_, by omega, by omega, gk _ hrl, le_of_eq hk, ?_, ?_⟩
        · rw [if_neg hv, u1 r (by omega)]
        · intro i a h4 h5 h6 h7; exact absurd h7 (by rw [hk]; exact lt_irrefl _)
        · intro i a h4 h5 h6; exact r3 i a h4 (by omega) h6
    · have hre : r = first := by omega
      subst hre
      have hk : key[r] = vmin := le_antisymm hf (not_lt.1 (r4 r _ (le_refl _) hrl (gk r hrl)))
      refine ⟨r, key[r]'(by omega), ?_, r1, hrl, gk _ hrl, hf, fun i a h4 h5 h6 h7 => absurd h7 (by rw [hk]; exact lt_irrefl _), fun i a h4 h5 => by omega⟩
      rw [if_neg (fun h => hc h.1)]
  have hsup : ∃ sup ks, rangeAdjSup key first last vmax q = some sup ∧ first ≤ sup ∧ sup < last ∧ key[sup]? = some ks ∧ vmax ≤ ks ∧
      (∀ (i : Nat) (a : α), first ≤ i → i < sup → key[i]? = some a → vmax < ks → a < vmax) ∧
      (∀ (i : Nat) (a : α), sup < i → i < last → key[i]? = some a → vmax < a) := by
    unfold rangeAdjSup
    rw [if_pos ⟨hqf, q2⟩, u2 q (by omega) (by omega), gk (q - 1) (by omega)]
    simp only [Option.map_some]
    have hle := q3 (q - 1) _ (by omega) (by omega) (gk (q - 1) (by omega))
    by_cases he : key[q - 1] = vmax
    · refine ⟨q - 1, key[q - 1]'(by omega), ?_, by omega, by omega, gk _ (by omega), ge_of_eq he, ?_, ?_⟩
      · rw [if_pos he, u2 q (by omega) (by omega)]
      · intro i a h4 h5 h6 h7; exact absurd h7 (by rw [he]; exact lt_irrefl _)
      · intro i a h4 h5 h6; exact not_le.1 (q4 i a (by omega) h5 h6)
    · have hql : q < last := by
        by_contra hc
        have : q = last := by omega
        subst this
        exact he (le_antisymm hle hl)
      refine ⟨q, key[q]'(by omega), ?_, by omega, hql, gk _ hql, ?_, ?_, ?_⟩
      · rw [if_neg he, u1 q (by omega)]
      · exact le_of_lt (not_le.1 (q4 q _ (le_refl _) hql (gk _ hql)))
      · intro i a h4 h5 h6 h7
        exact lt_of_le_of_lt (hs i (q - 1) a _ h4 (by omega) (by omega) h6 (gk _ (by omega))) (lt_of_le_of_ne hle he)
      · intro i a h4 h5 h6; exact not_le.1 (q4 i a (by omega) h5 h6)
  obtain ⟨inf, ki, i0, i1, i2, i3, i4, i5, i6⟩ := hinf
  obtain ⟨sup, ks, s0, s1, s2, s3, s4, s5, s6⟩ := hsup
  refine ⟨inf, sup, ki, ks, ?_, i1, i2, s1, s2, i3, s3, i4, s4, i5, i6, s5, s6⟩
  unfold binaryRangeSearch
  simp only [hr, hq, Option.bind_eq_bind, Option.bind_some, Option.pure_def, i0, s0]

/-- C13: searching an empty range reads nothing. -/
theorem C13_empty_range {α} [LinearOrder α] (key : List α) (first : Nat) (v : α) (h : first < 2 ^ 32) :
    lowerBound key first first v = some first ∧ upperBound key first first v = some first := by
  have e : u32sub first first = 0 := by unfold u32sub; omega
  unfold lowerBound upperBound lowerBoundLoop upperBoundLoop
  simp [e]

/-- A globally sorted list is sorted on every sub range. -/
theorem sortedOn_of_pairwise {α} [LinearOrder α] (key : List α) (h : key.Pairwise (· ≤ ·)) (first last : Nat) :
    SortedOn key first last := by
  intro i j a b _ hij _ hi hj
  rcases Nat.lt_or_eq_of_le hij with hlt | heq
  · obtain ⟨hi', rfl⟩ := List.getElem?_eq_some_iff.1 hi
    obtain ⟨hj', rfl⟩ := List.getElem?_eq_some_iff.1 hj
    exact List.pairwise_iff_getElem.1 h i j hi' hj' hlt
  · subst heq
    rw [hi] at hj
    exact le_of_eq (Option.some.inj hj)

/-- Non vacuity of the hypotheses of `C13_range_search`, and its outcome. -/
example : ∃ inf sup, binaryRangeSearch [1, 3, 5, 5, 9] 0 5 (4 : Nat) 5 = some (inf, sup) ∧ inf < 5 ∧ sup < 5 := by
  obtain ⟨inf, sup, _, _, h, _, h1, _, h2, _⟩ := C13_range_search [1, 3, 5, 5, 9] 0 5 (4 : Nat) 5 (by decide) (by decide)
    (by decide) (sortedOn_of_pairwise _ (by decide) _ _) (by decide) (by simp) (by simp)
  exact ⟨inf, sup, h, h1, h2⟩

example : SortedOn [1, 3, 5, 5, 9] 0 5 := sortedOn_of_pairwise _ (by decide) _ _

end Shamrock
