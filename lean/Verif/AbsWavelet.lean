import Verif.Abs
import Verif.Model.Wavelet

/-!
# Specification of the wavelet matrix

The sequence is a list of natural numbers below `2 ^ k`. `Built m k vals` lists the four ways of obtaining
a matrix; `vals` is the sequence the caller handed over.
-/

namespace Vers

variable [Profile]
open Spec

namespace Spec

/-- The `k`-bit words of a packed sequence, least significant bit first. -/
def chunks (k : Nat) (bs : List Bool) : List Nat :=
  (List.range (bs.length / k)).map fun i => bitsToNat ((bs.drop (i * k)).take k)

/-- The elements at positions `s .. e` (exclusive). -/
def between (l : List Nat) (s e : Nat) : List Nat := (l.take e).drop s

/-- The elements in ascending order. -/
def sorted (l : List Nat) : List Nat := l.mergeSort (· ≤ ·)

/-- `p` is the position, at or after `o`, of the occurrence of `c` that is preceded by exactly `r`
occurrences at or after `o`. -/
def IsNth (l : List Nat) (c o r p : Nat) : Prop := o ≤ p ∧ l[p]? = some c ∧ (between l o p).count c = r

end Spec

/-- `m` is the result of a constructor for the sequence `vals` of `k`-bit words. -/
inductive WM.Built : WM → Nat → List Nat → Prop
  | slice {seq k m} : 1 ≤ k → WM.fromSlice seq k = .ok m → Built m k (seq.map (·.toNat % 2 ^ k))
  | packed {v k m} : v.WF → WM.fromBitVec v k = .ok m → Built m k (chunks k v.bits)
  | slicePc {seq k m} : 1 ≤ k → WM.fromSlicePc seq k = .ok m → Built m k (seq.map (·.toNat % 2 ^ k))
  | packedPc {v k m} : v.WF → WM.fromBitVecPc v k = .ok m → Built m k (chunks k v.bits)

/-- The call returns (no panic) the value `o`, encoded in a bit vector of `k` bits. -/
def ResBV (k : Nat) (r : R (Option BV)) (o : Option Nat) : Prop :=
  ∃ ov : Option BV, r = .ok ov ∧ ov.map BV.bits = o.map (natToBits k) ∧ ∀ v ∈ ov, v.WF

/-- The call returns (no panic) the value `o` as a `u64`. -/
def ResU64 (r : R (Option Word)) (o : Option Nat) : Prop :=
  ∃ ov : Option Word, r = .ok ov ∧ ov.map BitVec.toNat = o

end Vers
