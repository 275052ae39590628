import Verif.Model.RsVec

/-!
# Specification vocabulary: memory safety and termination
-/

namespace Vers.Spec

/-- The computation does not access memory out of bounds in `unsafe` code. It may return or panic. -/
structure NoUB {α : Type} (r : R α) : Prop where
  ne : r ≠ .error .ub

/-- The loops of the computation end within the bounds that the model gives them. It may return or panic. -/
structure Ends {α : Type} (r : R α) : Prop where
  ne : r ≠ .error .fuel

/-- The call panics. -/
def Panics {α : Type} (r : R α) : Prop := ∃ p, r = .error p ∧ p ≠ .ub ∧ p ≠ .fuel

/-- The fields are in a range in which no sum or product of the search for a super block exceeds 64 bits, so that the
exact arithmetic of the model is that of the code: the entries of the select blocks are less than 2^63, and the
vector of the 8-byte super block descriptors takes less than 2^54 bytes. Nothing is said about consistency. -/
structure Fits (rs : RsVec) : Prop where
  supers : rs.supers.length < 2 ^ 51
  selects : ∀ e ∈ rs.selects, e.1 < 2 ^ 63 ∧ e.2 < 2 ^ 63

end Vers.Spec
