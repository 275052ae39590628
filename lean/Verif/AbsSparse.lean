import Verif.Abs
import Verif.Spec
import Verif.SpecIter
import Verif.Model.Sparse

/-! # What it means for a sparse vector to behave as a sequence of bits -/

namespace Vers

variable [Profile]
open Spec

/-- The bit sequence of length `n` whose ones are at the positions in `input`. -/
def Spec.indicator (input : List Word) (n : Nat) : List Bool :=
  (List.range n).map (fun p => decide (BitVec.ofNat 64 p ∈ input))

/-- Every (checked) query of `s` answers as specified for the bit sequence `l`. -/
structure Sparse.Behaves (s : Sparse) (l : List Bool) : Prop where
  len : s.len.toNat = l.length
  isSet : ∀ i : Word, s.isSet i = .ok l[i.toNat]?
  get : ∀ i : Word, s.get i = .ok (l[i.toNat]?.map (fun b => if b then 1#64 else 0#64))
  rank1 : ∀ i : Word, ∃ r, s.rank1 i = .ok r ∧ r.toNat = rank true l i.toNat
  rank0 : ∀ i : Word, ∃ r, s.rank0 i = .ok r ∧ r.toNat = rank false l i.toNat
  select1 : ∀ k, k < l.count true → ∃ p, s.select1 k = .ok p ∧ IsSelect true l k p.toNat
  select1_end : ∀ k, l.count true ≤ k → s.select1 k = .ok s.len
  iter1 : ∃ it, s.iter1 = .ok it ∧ ∀ ops,
    CallsOk NthInRange ((positions true l).map (BitVec.ofNat 64)) ops →
    execute (EfIter.step s.vec) it ops = .ok (iterRun ((positions true l).map (BitVec.ofNat 64)) ops)

end Vers
