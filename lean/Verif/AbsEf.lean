import Verif.Model.Prelude

/-!
# Specification vocabulary for sorted sequences of `u64`
-/

namespace Vers

variable [Profile]

/-- What the proofs assume about the floating point expression `(x as f64).log2().ceil() as usize`:
it does not decrease from `max(n, 2)` to `n + 2`, it is at most 64 on 64-bit values, positive from 2 on, and it
misses the logarithm, rounded up, by at most one. The exact logarithm (rounded up) has these properties, see
`logLike_ceilLog2` in `Verif/Props/EliasFano.lean`, and so has 64-bit floating point arithmetic, see
`Verif/Props/Float.lean`. -/
structure LogLike (fl : Nat → Nat) : Prop where
  step : ∀ n, 1 ≤ n → n < 2 ^ 60 → fl (max n 2) ≤ fl (n + 2)
  le : ∀ x, x < 2 ^ 64 → fl x ≤ 64
  pos : ∀ x, 2 ≤ x → x < 2 ^ 64 → 1 ≤ fl x
  lower : ∀ x, 2 ≤ x → x < 2 ^ 64 → x ≤ 2 ^ (fl x + 1)
  upper : ∀ x, 2 ≤ x → x < 2 ^ 64 → 2 ^ fl x ≤ 4 * x

namespace Spec

/-- Non-decreasing. -/
def Sorted (l : List Word) : Prop := l.Pairwise (· ≤ ·)

/-- `o` is the largest element of `l` that is at most `x` (`none` if there is none). -/
def IsPredecessor (l : List Word) (x : Word) : Option Word → Prop
  | some y => y ∈ l ∧ y ≤ x ∧ ∀ z ∈ l, z ≤ x → z ≤ y
  | none => ∀ z ∈ l, x < z

/-- `o` is the smallest element of `l` that is at least `x` (`none` if there is none). -/
def IsSuccessor (l : List Word) (x : Word) : Option Word → Prop
  | some y => y ∈ l ∧ x ≤ y ∧ ∀ z ∈ l, x ≤ z → y ≤ z
  | none => ∀ z ∈ l, z < x

end Spec
end Vers
