import Verif.SpecUnwind

/-! # Specification: vectors that stay within a capacity -/

namespace Vers.Spec

/-- The list never has more than `c` elements during the calls. -/
def Within (c : Nat) : List Bool → List (BitCall BV) → Prop
  | l, [] => l.length ≤ c
  | l, call :: cs => l.length ≤ c ∧
    Within c (match bitStep l call with
      | some (_, l') => l'
      | none => l) cs

end Vers.Spec
