import Verif.Model.Rmq

/-! # Specification of range minimum queries -/

namespace Vers.Spec

/-- `m` is an index in `[i, j]` and the element at `m` is less than or equal to every element of
`data[i..=j]`. -/
def IsRangeMin (data : List Word) (i j m : Nat) : Prop :=
  i ≤ m ∧ m ≤ j ∧ ∃ x, data[m]? = some x ∧ ∀ t y, i ≤ t → t ≤ j → data[t]? = some y → x.toNat ≤ y.toNat

/-- The index `t` respects the start bound. -/
def FromStart : Bnd → Nat → Prop
  | .included i, t => i ≤ t
  | .excluded i, t => i < t
  | .unbounded, _ => True

/-- The index `t` respects the end bound. -/
def UpToEnd : Bnd → Nat → Prop
  | .included i, t => t ≤ i
  | .excluded i, t => t < i
  | .unbounded, _ => True

/-- The index `t` belongs to the range with start bound `a` and end bound `b`. -/
def InRange (a b : Bnd) (t : Nat) : Prop := FromStart a t ∧ UpToEnd b t

end Vers.Spec
