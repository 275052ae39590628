import Verif.Model.Prelude

/-!
# Specification vocabulary

Plain mathematics on lists; no data structure of the library occurs here.
-/

namespace Vers.Spec

/-- Value of a bit list, least significant bit first. -/
def bitsToNat : List Bool → Nat
  | [] => 0
  | b :: l => b.toNat + 2 * bitsToNat l

/-- The `n` least significant bits of `x`, least significant first. -/
def natToBits : Nat → Nat → List Bool
  | 0, _ => []
  | n + 1, x => decide (x % 2 = 1) :: natToBits n (x / 2)

/-- The 64 bits of a word, least significant first. -/
def wordBits (w : Word) : List Bool := natToBits 64 w.toNat

/-- Number of occurrences of `b` among the first `i` entries. -/
def rank (b : Bool) (l : List Bool) (i : Nat) : Nat := (l.take i).count b

/-- `p` is the position of the occurrence of `b` that is preceded by exactly `k` occurrences. -/
def IsSelect (b : Bool) (l : List Bool) (k p : Nat) : Prop :=
  l[p]? = some b ∧ (l.take p).count b = k

/-- Positions of all `b` in ascending order, counting from `i`. -/
def positionsFrom (b : Bool) : Nat → List Bool → List Nat
  | _, [] => []
  | i, x :: l => if x = b then i :: positionsFrom b (i + 1) l else positionsFrom b (i + 1) l

/-- Positions of all `b` in `l` in ascending order. -/
def positions (b : Bool) (l : List Bool) : List Nat := positionsFrom b 0 l

end Vers.Spec
