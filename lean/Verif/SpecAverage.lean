import Verif.AbsEf

/-! # Specification: all queries between the smallest and the largest element of a sequence -/

namespace Vers.Spec

/-- The values from `lo` to `hi`, one after the other. -/
def valuesBetween (lo hi : Word) : List Word :=
  (List.range (hi.toNat - lo.toNat + 1)).map fun i => BitVec.ofNat 64 (lo.toNat + i)

/-- No element repeats. -/
def StrictlySorted (l : List Word) : Prop := l.Pairwise (· < ·)

/-- The difference of two neighbours is at most `d` times the average. -/
def Even (d : Nat) (lo hi : Word) (l : List Word) : Prop :=
  ∀ i a b, l[i]? = some a → l[i + 1]? = some b →
    (b.toNat - a.toNat) * l.length ≤ d * (hi.toNat - lo.toNat + 1)

end Vers.Spec
