import Verif.Model.Scan
import Verif.Props.Integer
import Mathlib.Data.List.Nodup
import Mathlib.Data.List.Range
/-! Lemmas about the scans. -/
namespace Shamrock

/-- Sum of `f 0 … f (n-1)` (wrapping). -/
def pre (f : Nat → W32) : Nat → W32
  | 0 => 0
  | n + 1 => pre f n + f n

/-- Specification of the exclusive sum: entry `i` is the sum of the first `i` inputs, modulo `2^32`. -/
def exclSpec (l : List W32) (i : Nat) : W32 := BitVec.ofNat 32 ((l.take i).map BitVec.toNat).sum

theorem exclSpec_zero (l : List W32) : exclSpec l 0 = 0 := by simp [exclSpec]

theorem exclSpec_succ (l : List W32) (i : Nat) (v : W32) (h : l[i]? = some v) : exclSpec l (i + 1) = exclSpec l i + v := by
  unfold exclSpec
  obtain ⟨hi, rfl⟩ := List.getElem?_eq_some_iff.1 h
  rw [List.take_succ_eq_append_getElem hi, List.map_append, List.sum_append, BitVec.ofNat_add]
  simp

theorem exclSpec_pre (l : List W32) : ∀ i, i ≤ l.length → exclSpec l i = pre (fun k => (l[k]?).getD 0) i := by
  intro i
  induction i with
  | zero => intro _; exact exclSpec_zero l
  | succ i ih =>
    intro h
    have hk : l[i]? = some (l[i]'(by omega)) := List.getElem?_eq_getElem (by omega)
    rw [exclSpec_succ l i _ hk, ih (by omega)]
    simp [pre, hk]

theorem exclSumLoop_length (l : List W32) : ∀ acc, (exclSumLoop acc l).length = l.length := by
  induction l with
  | nil => intro _; rfl
  | cons v r ih => intro acc; simp [exclSumLoop, ih]

theorem exclSumLoop_get (l : List W32) : ∀ acc (i : Nat), i < l.length → (exclSumLoop acc l)[i]? = some (acc + exclSpec l i) := by
  induction l with
  | nil => intro acc i h; simp at h
  | cons v r ih =>
    intro acc i h
    cases i with
    | zero => simp [exclSumLoop, exclSpec]
    | succ i =>
      simp only [exclSumLoop, List.getElem?_cons_succ]
      rw [ih (acc + v) i (by simpa using h)]
      simp [exclSpec, BitVec.ofNat_add, BitVec.add_assoc]

theorem inclSumLoop_get (l : List W32) : ∀ acc (i : Nat), i < l.length →
    (inclSumLoop acc l)[i]? = some (acc + exclSpec l (i + 1)) := by
  induction l with
  | nil => intro acc i h; simp at h
  | cons v r ih =>
    intro acc i h
    cases i with
    | zero => simp [inclSumLoop, exclSpec]
    | succ i =>
      simp only [inclSumLoop, List.getElem?_cons_succ]
      rw [ih (acc + v) i (by simpa using h)]
      simp [exclSpec, BitVec.ofNat_add, BitVec.add_assoc]

/-! ### log-step scan -/

theorem mapM_range_some {α} (n : Nat) (f : Nat → Option α) (g : Nat → α) (h : ∀ i < n, f i = some (g i)) :
    (List.range n).mapM f = some ((List.range n).map g) := by
  induction n with
  | zero => rfl
  | succ n ih =>
    rw [List.range_succ, List.mapM_append, ih (fun i hi => h i (by omega))]
    simp [h n (by omega)]

theorem pre_sub (f : Nat → W32) (n : Nat) : pre f n - pre f 0 = pre f n := by simp [pre]

theorem gemsLoop_spec (f : Nat → W32) (n : Nat) (hn : n ≤ 2 ^ 30) :
    ∀ (fuel k : Nat) (l : List W32), l.length = n → 32 ≤ fuel + k →
      (∀ i : Nat, i < n → l[i]? = some (pre f (i + 1) - pre f (i + 1 - 2 ^ k))) →
      (k = 0 ∨ 2 ^ (k - 1) < n) →
      ∃ out, gemsLoop n fuel (2 ^ k) l = some out ∧ out.length = n ∧ ∀ i : Nat, i < n → out[i]? = some (pre f (i + 1)) := by
  intro fuel
  induction fuel with
  | zero =>
    intro k l hl hk hinv hk2
    exfalso
    have h1 : 2 ^ (k - 1) < 2 ^ 30 := by
      rcases hk2 with h | h
      · omega
      · omega
    have := (Nat.pow_lt_pow_iff_right (by decide : 1 < 2)).1 h1
    omega
  | succ fuel ih =>
    intro k l hl hk hinv hk2
    simp only [gemsLoop]
    by_cases hc : 2 ^ k < n
    · rw [if_pos hc]
      have hstep : gemsStep l (2 ^ k) = some ((List.range n).map (fun i => pre f (i + 1) - pre f (i + 1 - 2 ^ (k + 1)))) := by
        unfold gemsStep
        rw [hl]
        apply mapM_range_some
        intro i hi
        rw [hinv i hi]
        simp only [Option.bind_eq_bind, Option.bind_some]
        by_cases ho : 2 ^ k ≤ i
        · rw [if_pos ho, hinv (i - 2 ^ k) (Nat.lt_of_le_of_lt (Nat.sub_le _ _) hi)]
          simp only [Option.bind_some, Option.pure_def, Option.some.injEq]
          have e1 : i - 2 ^ k + 1 = i + 1 - 2 ^ k := by omega
          have e2 : i - 2 ^ k + 1 - 2 ^ k = i + 1 - 2 ^ (k + 1) := by rw [Nat.pow_succ]; omega
          rw [e2, e1]
          apply BitVec.eq_of_toNat_eq
          simp only [BitVec.toNat_add, BitVec.toNat_sub]
          omega
        · rw [if_neg ho]
          have e1 : i + 1 - 2 ^ k = 0 := by omega
          have e2 : i + 1 - 2 ^ (k + 1) = 0 := by rw [Nat.pow_succ]; omega
          rw [e1, e2]; rfl
      rw [hstep]
      simp only [Option.bind_eq_bind, Option.bind_some]
      rw [if_pos (by omega)]
      have : 2 ^ k * 2 = 2 ^ (k + 1) := (Nat.pow_succ ..).symm
      rw [this]
      apply ih
      · simp
      · omega
      · intro i hi; simp [hi]
      · right; simpa using hc
    · rw [if_neg hc]
      refine ⟨l, rfl, hl, ?_⟩
      intro i hi
      rw [hinv i hi, show i + 1 - 2 ^ k = 0 by omega, pre_sub]

theorem gemsLoop_overflow (n : Nat) (hn : 2 ^ 30 < n) :
    ∀ (d fuel k : Nat) (l : List W32), k + d = 30 → gemsLoop n fuel (2 ^ k) l = none := by
  intro d
  induction d with
  | zero =>
    intro fuel k l hk
    have : k = 30 := by omega
    subst this
    cases fuel with
    | zero => rfl
    | succ fuel =>
      simp only [gemsLoop]
      rw [if_pos hn]
      cases gemsStep l (2 ^ 30) <;> simp
  | succ d ih =>
    intro fuel k l hk
    cases fuel with
    | zero => rfl
    | succ fuel =>
      simp only [gemsLoop]
      have hk2 : 2 ^ k ≤ 2 ^ 29 := Nat.pow_le_pow_right (by decide) (by omega)
      rw [if_pos (by omega)]
      cases gemsStep l (2 ^ k) with
      | none => rfl
      | some l' =>
        simp only [Option.bind_eq_bind, Option.bind_some]
        rw [if_pos (by omega), ← Nat.pow_succ]
        exact ih fuel (k + 1) l' (by omega)

/-- Value fed to the log-step scan at index `j`. -/
def gemsF (l : List W32) (j : Nat) : W32 := if 0 < j ∧ j < l.length then (l[j - 1]?).getD 0 else 0

theorem gemsF_pre (l : List W32) : ∀ i, i < l.length → pre (gemsF l) (i + 1) = exclSpec l i := by
  intro i
  induction i with
  | zero => intro _; simp [pre, gemsF, exclSpec]
  | succ i ih =>
    intro h
    have hk : l[i]? = some (l[i]'(by omega)) := List.getElem?_eq_getElem (by omega)
    rw [pre, ih (by omega), exclSpec_succ l i _ hk]
    unfold gemsF
    rw [if_pos ⟨by omega, h⟩, Nat.add_sub_cancel, hk]; rfl

theorem gems_main (l : List W32) (rl : Nat) (h1 : l.length ≤ rl) (hn : rl ≤ 2 ^ 30) :
    ∃ out, gemsScan2 l rl = some out ∧ out.length = rl ∧ ∀ i : Nat, i < l.length → out[i]? = some (exclSpec l i) := by
  have hinit : gemsInit l rl l.length = some ((List.range rl).map (gemsF l)) := by
    unfold gemsInit
    apply mapM_range_some
    intro i hi
    unfold gemsF
    split
    · rw [List.getElem?_eq_getElem (by omega)]; rfl
    · rfl
  unfold gemsScan2
  rw [hinit]
  simp only [Option.bind_eq_bind, Option.bind_some]
  obtain ⟨out, o1, o2, o3⟩ := gemsLoop_spec (gemsF l) rl hn 33 0 ((List.range rl).map (gemsF l)) (by simp) (by omega)
    (by intro i hi
        simp only [List.getElem?_map, List.getElem?_range hi, Option.map_some, Option.some.injEq, pre, Nat.pow_zero,
          Nat.add_sub_cancel]
        apply BitVec.eq_of_toNat_eq
        simp only [BitVec.toNat_add, BitVec.toNat_sub]
        omega)
    (Or.inl rfl)
  refine ⟨out, o1, o2, ?_⟩
  intro i hi
  rw [o3 i (by omega), gemsF_pre l i hi]

/-! ### stream compaction -/

/-- 0/1 flags. -/
def Binary (flags : List W32) : Prop := ∀ f ∈ flags, f = 0 ∨ f = 1

/-- The specification of stream compaction: increasing list of flagged indices. -/
def flaggedIdx (flags : List W32) (n : Nat) : List Nat :=
  (List.range n).filter (fun i => decide (∃ f, flags[i]? = some f ∧ f ≠ 0))

theorem flaggedIdx_succ (flags : List W32) (n : Nat) (f : W32) (h : flags[n]? = some f) :
    flaggedIdx flags (n + 1) = flaggedIdx flags n ++ (if f ≠ 0 then [n] else []) := by
  unfold flaggedIdx
  rw [List.range_succ, List.filter_append]
  congr 1
  by_cases hf : f = 0
  · rw [if_neg (by simpa using hf), List.filter_cons, if_neg (by simp [h, hf])]; rfl
  · rw [if_pos hf, List.filter_cons, if_pos (by simp only [h, decide_eq_true_eq]; exact ⟨f, rfl, hf⟩)]; rfl

theorem flaggedIdx_length_le (flags : List W32) (n : Nat) : (flaggedIdx flags n).length ≤ n := by
  unfold flaggedIdx
  have := List.length_filter_le (fun i => decide (∃ f, flags[i]? = some f ∧ f ≠ 0)) (List.range n)
  simpa using this

/-- On 0/1 flags the exclusive sum is the rank. -/
theorem exclSpec_rank (flags : List W32) (hb : Binary flags) (hlen : flags.length < 2 ^ 32) :
    ∀ n, n ≤ flags.length → (exclSpec flags n).toNat = (flaggedIdx flags n).length := by
  intro n
  induction n with
  | zero => intro _; simp [exclSpec, flaggedIdx]
  | succ n ih =>
    intro h
    have hk : flags[n]? = some (flags[n]'(by omega)) := List.getElem?_eq_getElem (by omega)
    rw [exclSpec_succ flags n _ hk, flaggedIdx_succ flags n _ hk, BitVec.toNat_add, ih (by omega)]
    have hle := flaggedIdx_length_le flags n
    rcases hb (flags[n]'(by omega)) (List.getElem_mem _) with h0 | h1
    · rw [h0]; simp; omega
    · rw [h1]; simp; omega

theorem flaggedIdx_rank (flags : List W32) (n i : Nat) (f : W32) (hn : n ≤ flags.length) (hi : i < n) (hf : flags[i]? = some f)
    (h0 : f ≠ 0) : (flaggedIdx flags n)[(flaggedIdx flags i).length]? = some i := by
  induction n with
  | zero => omega
  | succ n ih =>
    have hk : flags[n]? = some (flags[n]'(by omega)) := List.getElem?_eq_getElem (by omega)
    rw [flaggedIdx_succ flags n _ hk]
    by_cases hin : i = n
    · subst hin
      rw [hf] at hk
      have hfe : flags[i] = f := (Option.some.inj hk).symm
      rw [hfe, if_pos h0, List.getElem?_append_right (Nat.le_refl _)]
      simp
    · have := ih (by omega) (by omega)
      rw [List.getElem?_append_left]
      · exact this
      · exact (List.getElem?_eq_some_iff.1 this).1

theorem fallback_eq (flags : List W32) : ∀ (done : List W32) (idxs : List Nat), idxs = flaggedIdx (done ++ flags) done.length →
    streamCompactFallback flags done.length idxs = flaggedIdx (done ++ flags) (done ++ flags).length := by
  induction flags with
  | nil => intro done idxs h; simpa [streamCompactFallback] using h
  | cons f r ih =>
    intro done idxs h
    simp only [streamCompactFallback]
    have := ih (done ++ [f]) (if f ≠ 0 then idxs ++ [done.length] else idxs) ?_
    · simpa using this
    · have hk : (done ++ f :: r)[done.length]? = some f := by simp
      have := flaggedIdx_succ (done ++ f :: r) done.length f hk
      simp only [List.append_assoc, List.singleton_append, List.length_append, List.length_singleton]
      rw [this, ← h]
      split <;> simp

end Shamrock
