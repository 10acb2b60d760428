import Mathlib.Data.Rat.Floor
import Mathlib.Data.Int.Log
/-! Floating point rounding used by the models. A double is represented by its exact rational value; every C++ operation on doubles is
the exact rational operation followed by a rounding. Infinities, NaN, subnormals and overflow are not represented: the comments of the
users say why the values stay in the normal range. -/
namespace Shamrock

/-- What the proofs need of a rounding of non negative values: it is monotone and has relative error at most `2^-52`. Every IEEE-754
rounding mode of binary64 satisfies it in the normal range (`rne53` below is the default mode). -/
structure F64Rnd where
  fl : ℚ → ℚ
  mono : ∀ x y, 0 ≤ x → x ≤ y → fl x ≤ fl y
  lo : ∀ x, 0 ≤ x → x * (1 - 1 / 2 ^ 52) ≤ fl x
  hi : ∀ x, 0 ≤ x → fl x ≤ x * (1 + 1 / 2 ^ 52)

/-- Round to the nearest integer, ties to even. -/
def rne (q : ℚ) : ℤ :=
  if q - ⌊q⌋ < 1 / 2 then ⌊q⌋ else if 1 / 2 < q - ⌊q⌋ then ⌊q⌋ + 1 else if ⌊q⌋ % 2 = 0 then ⌊q⌋ else ⌊q⌋ + 1

/-- IEEE-754 binary64 round to nearest even of a non negative value in the normal range: 53 significant bits. -/
def rne53 (x : ℚ) : ℚ := if x = 0 then 0 else (rne (x / 2 ^ (Int.log 2 x - 52)) : ℚ) * 2 ^ (Int.log 2 x - 52)

end Shamrock
