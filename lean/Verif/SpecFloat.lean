import Mathlib.Analysis.SpecialFunctions.Log.Base
import Mathlib.Data.Int.Log

/-! # 64-bit floating point numbers

The part of IEEE 754 arithmetic that the sizes of the data structures depend on: rounding to 53 binary digits, for
positive numbers in the range of normal numbers. The expression in question is
`(x as f64).log2().ceil() as usize`, src/elias_fano/mod.rs:106-108 and src/trees/mmt.rs:53. -/

namespace Vers.Spec

/-- Rounding to a nearest integer. Ties may be broken in any (monotone) way. -/
structure Rounding (r : ℝ → ℤ) : Prop where
  mono : Monotone r
  near : ∀ x, |x - r x| ≤ 1 / 2

/-- The 64-bit floating point number next to a positive `x`: with `2^e ≤ x < 2^(e+1)`, the multiple of
`2^(e-52)` next to `x`. -/
noncomputable def toF64 (r : ℝ → ℤ) (x : ℝ) : ℝ :=
  if x ≤ 0 then 0 else (r (x * 2 ^ (52 - Int.log 2 x)) : ℝ) * 2 ^ (Int.log 2 x - 52)

/-- `(x as f64).log2()`, with conversion and logarithm rounded correctly. -/
noncomputable def f64Log2 (r : ℝ → ℤ) (x : ℕ) : ℝ := toF64 r (Real.logb 2 (toF64 r x))

/-- What is needed of an implementation of `(x as f64).log2()`: it is exact for powers of two, its error is below
`2^-46` (between one and two units in the last place of numbers close to 64), it does not exceed 64 for 64-bit
integers and it is monotone for arguments from `2^45` on. Monotonicity matters only for sequences of at least
`2^45` elements. -/
structure FloatLog (lg : ℕ → ℝ) : Prop where
  exact : ∀ k : ℕ, k ≤ 64 → lg (2 ^ k) = k
  err : ∀ x : ℕ, 1 ≤ x → x < 2 ^ 64 → |lg x - Real.logb 2 x| ≤ 1 / 2 ^ 46
  le : ∀ x : ℕ, x < 2 ^ 64 → lg x ≤ 64
  mono : ∀ a b : ℕ, 2 ^ 45 ≤ a → a ≤ b → b < 2 ^ 64 → lg a ≤ lg b

end Vers.Spec
