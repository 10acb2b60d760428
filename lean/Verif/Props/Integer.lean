import Verif.Proof.Integer
import Mathlib.Algebra.Group.Defs
import Mathlib.Algebra.Group.Basic
/-! Properties C28, C29 and C20: integer helpers. `IsRoundupPow2 v r` (Proof/Integer.lean) is the specification
"`r` is the least power of two that is at least `v`". -/
namespace Shamrock

/-! ### C29 -/

/-- C29: `roundup_pow2` on u32 is the least power of two at least `v`, on the whole range where it exists. -/
theorem C29_roundup_pow2_u32 (v : BitVec 32) (h1 : 1 ≤ v.toNat) (h2 : v.toNat ≤ 2 ^ 31) :
    IsRoundupPow2 v.toNat (roundupPow2U32 v).toNat := by
  have hs : (v - 1).toNat = v.toNat - 1 := by
    rw [BitVec.toNat_sub_of_le] <;> simp [BitVec.le_def]; omega
  rw [smear32, hs]
  have hsz : (v.toNat - 1).size ≤ 31 := Nat.size_le.2 (by omega)
  rw [Nat.mod_eq_of_lt (Nat.pow_lt_pow_right (by omega) (by omega))]
  exact isRoundup_size h1

example : 1 ≤ (5 : BitVec 32).toNat ∧ (5 : BitVec 32).toNat ≤ 2 ^ 31 ∧ roundupPow2U32 5 = 8 := by decide

/-- C29: outside that range `roundup_pow2` on u32 returns 0. -/
theorem C29_roundup_pow2_u32_out (v : BitVec 32) (h : v.toNat = 0 ∨ 2 ^ 31 < v.toNat) :
    roundupPow2U32 v = 0 := by
  apply BitVec.eq_of_toNat_eq
  rw [smear32]
  have hsz : (v - 1).toNat.size = 32 := by
    have hlt := (v - 1).isLt
    have h31 : 2 ^ 31 ≤ (v - 1).toNat := by
      rcases h with h | h
      · have : v = 0 := BitVec.eq_of_toNat_eq (by simpa using h)
        subst this; decide
      · have hs : (v - 1).toNat = v.toNat - 1 := by
          rw [BitVec.toNat_sub_of_le] <;> simp [BitVec.le_def]; omega
        omega
    apply le_antisymm (Nat.size_le.2 hlt)
    by_contra hc
    have := Nat.size_le.1 (show (v - 1).toNat.size ≤ 31 by omega)
    omega
  rw [hsz]; rfl

example : (3000000000 : BitVec 32).toNat = 0 ∨ 2 ^ 31 < (3000000000 : BitVec 32).toNat := by decide

/-- C29: `roundup_pow2` on u64. -/
theorem C29_roundup_pow2_u64 (v : BitVec 64) (h1 : 1 ≤ v.toNat) (h2 : v.toNat ≤ 2 ^ 63) :
    IsRoundupPow2 v.toNat (roundupPow2U64 v).toNat := by
  have hs : (v - 1).toNat = v.toNat - 1 := by
    rw [BitVec.toNat_sub_of_le] <;> simp [BitVec.le_def]; omega
  rw [smear64, hs]
  have hsz : (v.toNat - 1).size ≤ 63 := Nat.size_le.2 (by omega)
  rw [Nat.mod_eq_of_lt (Nat.pow_lt_pow_right (by omega) (by omega))]
  exact isRoundup_size h1

example : 1 ≤ (5000000000 : BitVec 64).toNat ∧ (5000000000 : BitVec 64).toNat ≤ 2 ^ 63 ∧
    roundupPow2U64 5000000000 = 8589934592 := by decide

theorem clz_eq_size {w : Nat} (v : BitVec w) : w - clz v = v.toNat.size := by
  unfold clz
  split
  · next h => simp [h]
  · next h =>
    have h1 : v.toNat.size = v.toNat.log2 + 1 := by
      apply le_antisymm
      · exact Nat.size_le.2 Nat.lt_log2_self
      · exact Nat.lt_size.2 (Nat.log2_self_le h)
    have h2 : v.toNat.log2 < w := (Nat.log2_lt h).2 v.isLt
    omega

theorem roundup_nonpow {n : Nat} (h : ¬ ∃ k, n = 2 ^ k) : (max n 1 - 1).size = n.size := by
  rcases Nat.eq_zero_or_pos n with h0 | h0
  · subst h0; rfl
  · have hm : max n 1 = n := by omega
    rw [hm]
    apply le_antisymm
    · exact Nat.size_le_size (by omega)
    · apply Nat.size_le.2
      have := Nat.lt_size_self (n - 1)
      rcases Nat.lt_or_ge n (2 ^ (n - 1).size) with h1 | h1
      · exact h1
      · exact absurd ⟨(n - 1).size, by omega⟩ h

theorem max_signed_p1 {w : Nat} (hw : 0 < w) : ((BitVec.allOnes w >>> 1) + 1).toNat = 2 ^ (w - 1) := by
  rw [BitVec.toNat_add, BitVec.toNat_ushiftRight, BitVec.toNat_allOnes,
    show BitVec.toNat (1 : BitVec w) = 1 from BitVec.toNat_one hw]
  have h2 : 2 ^ w = 2 * 2 ^ (w - 1) := by
    rw [← Nat.pow_succ']; congr 1; omega
  have hp := Nat.two_pow_pos (w - 1)
  rw [Nat.shiftRight_one]
  have : (2 ^ w - 1) / 2 = 2 ^ (w - 1) - 1 := by omega
  rw [this, Nat.mod_eq_of_lt] <;> omega

theorem roundup_self_pow (k : Nat) : IsRoundupPow2 (2 ^ k) (2 ^ k) :=
  ⟨⟨k, rfl⟩, le_refl _, fun _ h => h⟩

/-- C29: `roundup_pow2_clz` on u32: 0 goes to 1, otherwise the least power of two, 0 above 2^31; never undefined. -/
theorem C29_roundup_pow2_clz_u32 (v : BitVec 32) :
    ∃ r, roundupPow2Clz v = some r ∧
      (v.toNat ≤ 2 ^ 31 → IsRoundupPow2 (max v.toNat 1) r.toNat) ∧ (2 ^ 31 < v.toNat → r = 0) := by
  unfold roundupPow2Clz
  simp only []
  have hm := max_signed_p1 (w := 32) (by omega)
  by_cases habove : v > (BitVec.allOnes 32 >>> 1) + 1
  · rw [if_pos habove]
    have : 2 ^ 31 < v.toNat := by
      have := BitVec.lt_def.1 habove; rw [hm] at this; exact this
    exact ⟨0, rfl, fun h => by omega, fun _ => rfl⟩
  · rw [if_neg habove]
    have hle : v.toNat ≤ 2 ^ 31 := by
      have := mt BitVec.lt_def.2 habove; rw [hm] at this; omega
    by_cases hp : isPowOfTwo v = true
    · rw [if_pos hp]
      obtain ⟨k, hk⟩ := (isPowOfTwo_iff v).1 hp
      refine ⟨v, rfl, fun _ => ?_, fun h => by omega⟩
      have : max v.toNat 1 = 2 ^ k := by have := Nat.two_pow_pos k; omega
      rw [this, hk]; exact roundup_self_pow k
    · rw [if_neg hp]
      have hnp : ¬ ∃ k, v.toNat = 2 ^ k := fun h => hp ((isPowOfTwo_iff v).2 h)
      have hsz : v.toNat.size ≤ 31 := Nat.size_le.2 (by
        rcases Nat.lt_or_ge v.toNat (2 ^ 31) with h | h
        · exact h
        · exact absurd ⟨31, by omega⟩ hnp)
      rw [clz_eq_size, shl1U, if_pos (by omega)]
      refine ⟨_, rfl, fun _ => ?_, fun h => by omega⟩
      have hval : (BitVec.setWidth 32 ((1 : BitVec 32) <<< v.toNat.size)).toNat = 2 ^ v.toNat.size := by
        simp [Nat.shiftLeft_eq]
        exact Nat.pow_lt_pow_right (m := v.toNat.size) (n := 32) (by omega) (by omega)
      show IsRoundupPow2 _ (BitVec.setWidth 32 ((1 : BitVec 32) <<< v.toNat.size)).toNat
      rw [hval, ← roundup_nonpow hnp]
      exact isRoundup_size (by omega)

example : roundupPow2Clz (0 : BitVec 32) = some 1 ∧ roundupPow2Clz (37 : BitVec 32) = some 64 ∧
    roundupPow2Clz (3000000000 : BitVec 32) = some 0 := by decide

/-- C29 (defect): `roundup_pow2_clz<u64>` shifts the 32 bit literal `1U`: for every non power of two strictly between 2^31 and
2^63 the shift amount is at least 32, i.e. undefined behaviour, so the documented result is not delivered. -/
theorem C29_roundup_pow2_clz_u64_defect (v : BitVec 64) (h1 : 2 ^ 31 < v.toNat) (h2 : v.toNat < 2 ^ 63)
    (hnp : ¬ ∃ k, v.toNat = 2 ^ k) : roundupPow2Clz v = none := by
  unfold roundupPow2Clz
  simp only []
  have hm := max_signed_p1 (w := 64) (by omega)
  have habove : ¬ v > (BitVec.allOnes 64 >>> 1) + 1 := by
    intro h; have := BitVec.lt_def.1 h; rw [hm] at this; omega
  have hp : ¬ isPowOfTwo v = true := fun h => hnp ((isPowOfTwo_iff v).1 h)
  have hsz : ¬ v.toNat.size < 32 := by
    intro h; have := Nat.size_le.1 (show v.toNat.size ≤ 31 by omega); omega
  rw [if_neg habove, if_neg hp, clz_eq_size, shl1U, if_neg hsz]; rfl

example : roundupPow2Clz (5000000000 : BitVec 64) = none := by decide

/-- C29: `roundup_pow2_clz<u64>` is right up to 2^31 (the full property asks for the range up to 2^63, which fails by
`C29_roundup_pow2_clz_u64_defect`). -/
theorem C29_roundup_pow2_clz_u64_partial (v : BitVec 64) (h : v.toNat ≤ 2 ^ 31) :
    ∃ r, roundupPow2Clz v = some r ∧ IsRoundupPow2 (max v.toNat 1) r.toNat := by
  unfold roundupPow2Clz
  simp only []
  have hm := max_signed_p1 (w := 64) (by omega)
  have habove : ¬ v > (BitVec.allOnes 64 >>> 1) + 1 := by
    intro h; have := BitVec.lt_def.1 h; rw [hm] at this; omega
  rw [if_neg habove]
  by_cases hp : isPowOfTwo v = true
  · rw [if_pos hp]
    obtain ⟨k, hk⟩ := (isPowOfTwo_iff v).1 hp
    refine ⟨v, rfl, ?_⟩
    have : max v.toNat 1 = 2 ^ k := by have := Nat.two_pow_pos k; omega
    rw [this, hk]; exact roundup_self_pow k
  · rw [if_neg hp]
    have hnp : ¬ ∃ k, v.toNat = 2 ^ k := fun h => hp ((isPowOfTwo_iff v).2 h)
    have hsz : v.toNat.size ≤ 31 := Nat.size_le.2 (by
      rcases Nat.lt_or_ge v.toNat (2 ^ 31) with h | h
      · exact h
      · exact absurd ⟨31, by omega⟩ hnp)
    rw [clz_eq_size, shl1U, if_pos (by omega)]
    refine ⟨_, rfl, ?_⟩
    have hval : (BitVec.setWidth 64 ((1 : BitVec 32) <<< v.toNat.size)).toNat = 2 ^ v.toNat.size := by
      have hlt : 2 ^ v.toNat.size < 2 ^ 32 := Nat.pow_lt_pow_right (by omega) (by omega)
      simp only [BitVec.toNat_setWidth, BitVec.toNat_shiftLeft, Nat.shiftLeft_eq]
      have : (1 : BitVec 32).toNat = 1 := rfl
      rw [this, Nat.one_mul, Nat.mod_eq_of_lt hlt, Nat.mod_eq_of_lt (by omega)]
    show IsRoundupPow2 _ (BitVec.setWidth 64 ((1 : BitVec 32) <<< v.toNat.size)).toNat
    rw [hval, ← roundup_nonpow hnp]
    exact isRoundup_size (by omega)

example : ((37 : BitVec 64).toNat ≤ 2 ^ 31) ∧ roundupPow2Clz (37 : BitVec 64) = some 64 := by decide

/-- C29: `group_count` is the least number of groups covering `len`, as long as `len + group_size - 1` fits in u32. -/
theorem C29_group_count_partial (len gs : BitVec 32) (hg : 0 < gs.toNat) (h : len.toNat + gs.toNat - 1 < 2 ^ 32) :
    ∃ r, groupCount len gs = some r ∧ len.toNat ≤ r.toNat * gs.toNat ∧
      ∀ n, len.toNat ≤ n * gs.toNat → r.toNat ≤ n := by
  have hne : gs ≠ 0 := by rintro rfl; simp at hg
  refine ⟨_, by rw [groupCount, if_neg hne], ?_⟩
  have hval : ((len + gs - 1) / gs).toNat = (len.toNat + gs.toNat - 1) / gs.toNat := by
    rw [BitVec.toNat_udiv]
    congr 1
    rw [BitVec.toNat_sub, BitVec.toNat_add]
    have : (1 : BitVec 32).toNat = 1 := rfl
    rw [this]; omega
  rw [hval]
  refine ⟨?_, fun n hn => ?_⟩
  · have hd := Nat.div_add_mod (len.toNat + gs.toNat - 1) gs.toNat
    have hm := Nat.mod_lt (len.toNat + gs.toNat - 1) hg
    rw [Nat.mul_comm]; omega
  · rw [Nat.div_le_iff_le_mul_add_pred hg, Nat.mul_comm]; omega

example : groupCount 1000 256 = some 4 := by decide

/-- C29 (defect): near 2^32 the sum wraps and `group_count` returns far too few groups: with the last valid u32 length and
groups of 256 it returns 0 groups. -/
theorem C29_group_count_defect : groupCount 4294967295 256 = some 0 := by decide

/-- C29: `pack32`/`unpack32` are mutually inverse. -/
theorem C29_unpack_pack (a b : BitVec 32) : unpack32 (pack32 a b) = (a, b) := by
  have hb := b.isLt
  have ha := a.isLt
  have hp : (pack32 a b).toNat = a.toNat * 2 ^ 32 + b.toNat := by
    simp only [pack32, BitVec.toNat_add, BitVec.toNat_shiftLeft, BitVec.toNat_setWidth, Nat.shiftLeft_eq]
    omega
  refine Prod.ext (BitVec.eq_of_toNat_eq ?_) (BitVec.eq_of_toNat_eq ?_)
  · simp only [unpack32, BitVec.toNat_setWidth, BitVec.toNat_ushiftRight, hp, Nat.shiftRight_eq_div_pow]
    omega
  · simp only [unpack32, BitVec.toNat_setWidth, hp]; omega

theorem C29_pack_unpack (v : BitVec 64) : pack32 (unpack32 v).1 (unpack32 v).2 = v := by
  apply BitVec.eq_of_toNat_eq
  have := v.isLt
  simp only [pack32, unpack32, BitVec.toNat_add, BitVec.toNat_shiftLeft, BitVec.toNat_setWidth, Nat.shiftLeft_eq,
    BitVec.toNat_ushiftRight, Nat.shiftRight_eq_div_pow]
  omega

/-- C29: `is_pow_of_two` is exactly the predicate "is a power of two"; the fast version also accepts 0. -/
theorem C29_is_pow_of_two {w : Nat} (v : BitVec w) : isPowOfTwo v = true ↔ ∃ k, v.toNat = 2 ^ k :=
  isPowOfTwo_iff v

theorem C29_is_pow_of_two_fast {w : Nat} (v : BitVec w) :
    isPowOfTwoFast v = true ↔ v = 0 ∨ ∃ k, v.toNat = 2 ^ k := by
  rw [← isPowOfTwo_iff]
  unfold isPowOfTwoFast isPowOfTwo
  by_cases h : v = 0
  · subst h; simp
  · have h' : ¬ v = 0#w := h
    simp [h']

/-- C29: `xor_swap` swaps. -/
theorem C29_xor_swap {w : Nat} (a b : BitVec w) : xorSwap a b = (b, a) := xorSwap_eq a b

/-- C29: `log2_pow2_num` of a power of two is its exponent. -/
theorem C29_log2_pow2_num {w k : Nat} (v : BitVec w) (h : v.toNat = 2 ^ k) : log2Pow2Num v = k := by
  have := clz_eq_size v
  unfold log2Pow2Num
  rw [this, h, Nat.size_pow]; omega

example : (64 : BitVec 32).toNat = 2 ^ 6 ∧ log2Pow2Num (64 : BitVec 32) = 6 := by decide

/-- C29: `pow_constexpr<n>` is the n-th power in every monoid (for floats this is the exact-arithmetic reading). -/
theorem C29_pow_constexpr {M : Type} [Monoid M] (n : Nat) (a : M) : powConstexpr n a = a ^ n := by
  induction n using Nat.strong_induction_on with
  | _ n ih =>
    rw [powConstexpr]
    split
    · next h => simp [h]
    · split
      · next h1 h2 =>
        simp only []
        rw [ih (n / 2) (by omega), ← pow_add]; congr 1; omega
      · next h1 h2 =>
        simp only []
        rw [ih ((n - 1) / 2) (by omega), ← pow_add, ← pow_succ]; congr 1; omega

/-! ### C28 -/

/-- C28: `can_narrow` holds exactly when the value of the source type is representable in the target type, for all four
signedness combinations and all widths; the result of `narrow_or_throw` is that same value, otherwise it throws. -/
theorem C28_can_narrow (U T : IntTy) (hU : 0 < U.bits) (hT : 0 < T.bits) (val : Int)
    (hval : T.minv ≤ val ∧ val ≤ T.maxv) :
    canNarrow U T val = true ↔ U.minv ≤ val ∧ val ≤ U.maxv := by
  obtain ⟨us, ub⟩ := U
  obtain ⟨ts, tb⟩ := T
  simp only at hU hT
  have hTp : (2 : Int) ^ tb = 2 * 2 ^ (tb - 1) := by
    rw [← pow_succ']; congr 1; omega
  have hUp : (2 : Int) ^ ub = 2 * 2 ^ (ub - 1) := by
    rw [← pow_succ']; congr 1; omega
  have hpT : (0 : Int) < 2 ^ (tb - 1) := by positivity
  have hpU : (0 : Int) < 2 ^ (ub - 1) := by positivity
  cases us <;> cases ts <;>
    simp only [canNarrow, IntTy.minv, IntTy.maxv, IntTy.makeUnsigned, IntTy.cast, Bool.false_and, Bool.false_eq_true, if_true,
      if_false, Bool.and_eq_true, decide_eq_true_eq, ge_iff_le] at *
  · omega
  · constructor
    · rintro ⟨h1, h2⟩
      rw [Int.emod_eq_of_lt h1 (by omega)] at h2; omega
    · rintro ⟨h1, h2⟩
      rw [Int.emod_eq_of_lt h1 (by omega)]; omega
  · rw [Int.emod_eq_of_lt (by omega) (by omega)]; omega

theorem C28_narrow_or_throw (U T : IntTy) (hU : 0 < U.bits) (hT : 0 < T.bits) (val : Int)
    (hval : T.minv ≤ val ∧ val ≤ T.maxv) :
    narrowOrThrow U T val = if U.minv ≤ val ∧ val ≤ U.maxv then some val else none := by
  unfold narrowOrThrow
  have h := C28_can_narrow U T hU hT val hval
  by_cases hc : U.minv ≤ val ∧ val ≤ U.maxv
  · rw [if_pos (h.2 hc), if_pos hc]
    congr 1
    obtain ⟨us, ub⟩ := U
    simp only at hU
    have hUp : (2 : Int) ^ ub = 2 * 2 ^ (ub - 1) := by
      rw [← pow_succ']; congr 1; omega
    have hpU : (0 : Int) < 2 ^ (ub - 1) := by positivity
    cases us <;> simp only [IntTy.minv, IntTy.maxv, IntTy.cast, Bool.false_and, Bool.false_eq_true, if_true, if_false,
      Bool.true_and, decide_eq_true_eq] at *
    · exact Int.emod_eq_of_lt hc.1 (by omega)
    · by_cases hn : 0 ≤ val
      · rw [Int.emod_eq_of_lt hn (by omega), if_neg (by omega)]
      · have : val % 2 ^ ub = val + 2 ^ ub := by
          rw [← Int.add_emod_right, Int.emod_eq_of_lt (by omega) (by omega)]
        rw [this, if_pos (by omega)]; omega
  · rw [if_neg (fun hh => hc (h.1 hh)), if_neg hc]

example : narrowOrThrow ⟨true, 32⟩ ⟨false, 64⟩ 2147483647 = some 2147483647 ∧
    narrowOrThrow ⟨true, 32⟩ ⟨false, 64⟩ 2147483648 = none ∧
    narrowOrThrow ⟨false, 32⟩ ⟨true, 64⟩ (-1) = none := by decide

/-! ### C20 -/

theorem endianSwapStep_length (sz : Nat) (l : List (BitVec 8)) (i : Nat) :
    (endianSwapStep sz l i).length = l.length := by simp [endianSwapStep]

theorem endian_loop (l : List (BitVec 8)) (n : Nat) (hn : 2 * n ≤ l.length) :
    let r := (List.range n).foldl (endianSwapStep l.length) l
    r.length = l.length ∧ ∀ k, k < l.length →
      r.getD k 0 = if k < n ∨ l.length - 1 - n < k then l.getD (l.length - 1 - k) 0 else l.getD k 0 := by
  induction n with
  | zero =>
    refine ⟨rfl, fun k hk => ?_⟩
    simp only [List.range_zero, List.foldl_nil]
    rw [if_neg (by omega)]
  | succ n ih =>
    obtain ⟨ihl, ihv⟩ := ih (by omega)
    simp only [List.range_succ, List.foldl_append, List.foldl_cons, List.foldl_nil]
    generalize hr : (List.range n).foldl (endianSwapStep l.length) l = r at *
    refine ⟨by rw [endianSwapStep_length, ihl], fun k hk => ?_⟩
    unfold endianSwapStep
    rw [xorSwap_eq]
    simp only []
    by_cases h1 : k = l.length - 1 - n
    · subst h1
      rw [List.getD_eq_getElem?_getD, List.getElem?_set_self (by simp; omega), Option.getD_some, ihv n (by omega),
        if_neg (by omega), if_pos (by omega)]
      congr 1; omega
    · rw [List.getD_eq_getElem?_getD, List.getElem?_set_ne (by omega)]
      by_cases h2 : k = n
      · subst h2
        rw [List.getElem?_set_self (by omega), Option.getD_some, ihv _ (by omega), if_neg (by omega), if_pos (by omega)]
      · rw [List.getElem?_set_ne (by omega), ← List.getD_eq_getElem?_getD, ihv k hk]
        by_cases h3 : k < n ∨ l.length - 1 - n < k
        · rw [if_pos h3, if_pos (by omega)]
        · rw [if_neg h3, if_neg (by omega)]

/-- C20: `endian_swap` reverses the bytes, for every object size. -/
theorem C20_endian_swap_reverse (bytes : List (BitVec 8)) : endianSwap bytes = bytes.reverse := by
  unfold endianSwap
  simp only []
  have hsteps : (if bytes.length % 2 = 0 then bytes.length / 2 else (bytes.length - 1) / 2) = bytes.length / 2 := by
    split <;> omega
  rw [hsteps]
  obtain ⟨h1, h2⟩ := endian_loop bytes (bytes.length / 2) (by omega)
  apply List.ext_getElem (by simp [h1])
  intro k hk1 hk2
  simp only [List.length_reverse] at hk2
  have hv := h2 k hk2
  rw [List.getD_eq_getElem?_getD, List.getElem?_eq_getElem hk1, Option.getD_some] at hv
  rw [hv, List.getElem_reverse]
  split
  · rw [List.getD_eq_getElem?_getD, List.getElem?_eq_getElem (by omega), Option.getD_some]
  · rw [List.getD_eq_getElem?_getD, List.getElem?_eq_getElem hk2, Option.getD_some]
    congr 1; omega

/-- C20: swapping twice restores the value. -/
theorem C20_endian_swap_involutive (bytes : List (BitVec 8)) : endianSwap (endianSwap bytes) = bytes := by
  rw [C20_endian_swap_reverse, C20_endian_swap_reverse, List.reverse_reverse]

example : endianSwap [1, 2, 3, 4, 5, 6, 7, 8] = [8, 7, 6, 5, 4, 3, 2, 1] := by decide

end Shamrock
