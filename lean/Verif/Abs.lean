import Verif.Spec
import Verif.Model.BitVec

/-!
# Abstraction functions

How the stored representation is read as plain mathematics. The property theorems are stated with
these and with `Verif/Spec.lean` only.
-/

namespace Vers

variable [Profile]

/-- Bit `i` of a limb sequence: bit `i % 64` of limb `i / 64` (limbs beyond the end read as zero). -/
def lbit (d : List Word) (i : Nat) : Bool := (d[i / 64]?.getD 0#64).getLsbD (i % 64)

namespace BV

/-- The bits of a vector, in order. -/
def bits (v : BV) : List Bool := (List.range v.len).map (lbit v.data)

/-- Representation invariant: exactly as many limbs as needed. `C11` proves that every vector built
through the API has it. -/
def WF (v : BV) : Prop := v.data.length = (v.len + 63) / 64

instance (v : BV) : Decidable v.WF := inferInstanceAs (Decidable (_ = _))

/-- No junk: every stored bit at or after the end is zero. -/
def Clean (v : BV) : Prop := ∀ i, v.len ≤ i → lbit v.data i = false

end BV

/-- The operation does not panic, and yields a well-formed vector with exactly the bits `l`. -/
def Refines (r : R BV) (l : List Bool) : Prop := ∃ v, r = .ok v ∧ v.WF ∧ v.bits = l

/-- A word operation that acts bit by bit like `g`. -/
def Bitwise (f : Word → Word → Word) (g : Bool → Bool → Bool) : Prop :=
  ∀ a b i, i < 64 → (f a b).getLsbD i = g (a.getLsbD i) (b.getLsbD i)

end Vers
