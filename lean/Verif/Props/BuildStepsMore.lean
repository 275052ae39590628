import Verif.Proofs.BuildStepsMore
import Verif.Props.BuildSteps
import Verif.Props.EliasFano

/-! # Property C76, continued: the time of the constructors of Elias-Fano vectors, sparse vectors and trees

`fromSliceC`, `newC`, `fromBitVecC` and `fromBitVectorC` (`Model/BuildStepsMore.lean`) are the constructors with a counter,
see `Props/BuildSteps.lean`. `fl` is the logarithm computed in floating point. -/

namespace Vers

variable [Profile]
open Counted

/-- `EliasFanoVec::from_slice` takes O(n) steps for `n` elements, independent of the universe, also if the elements are not
sorted. -/
theorem C76_elias_fano (lazy : Bool) {fl : Nat → Nat} (hfl : LogLike fl) (data : List Word) (hl : data.length < 2 ^ 60) :
    Within (EF.fromSliceC lazy fl data) (EF.fromSlice fl data) (3 * data.length + 6) :=
  EF.fromSliceC_within lazy hfl data hl

example : (EF.fromSliceC false ceilLog2 [3#64, 10#64, 200#64, 2000#64]).result.isOk = true ∧
    (EF.fromSliceC false ceilLog2 [3#64, 10#64, 200#64, 2000#64]).steps = if Profile.debug then 12 else 8 := by decide +revert +kernel

/-- `SparseRSVec::new` takes O(n) steps for `n` positions, independent of the length of the vector. -/
theorem C76_sparse_new (lazy : Bool) {fl : Nat → Nat} (hfl : LogLike fl) (input : List Word) (hl : input.length < 2 ^ 60)
    (len : Word) : Within (Sparse.newC lazy fl input len) (Sparse.new fl input len) (5 * input.length + 6) :=
  Sparse.newC_within lazy hfl input hl len

example : (Sparse.newC false ceilLog2 [3#64, 10#64, 200#64] 1000#64).result.isOk = true ∧
    (Sparse.newC false ceilLog2 [3#64, 10#64, 200#64] 1000#64).steps = if Profile.debug then 16 else 7 := by decide +revert +kernel

/-- `SparseRSVec::from_bitvec` and `from_bitvec_inverted` take O(n) steps for `n` bits. -/
theorem C76_sparse_from_bit_vec (lazy : Bool) {fl : Nat → Nat} (hfl : LogLike fl) (v : BV) (hl : v.len < 2 ^ 60) :
    Within (Sparse.fromBitVecC lazy fl v) (Sparse.fromBitVec fl v) (6 * v.len + 7) ∧
    Within (Sparse.fromBitVecInvertedC lazy fl v) (Sparse.fromBitVecInverted fl v) (6 * v.len + 7) :=
  ⟨Sparse.collect_new_within lazy hfl v hl 1#64, Sparse.collect_new_within lazy hfl v hl 0#64⟩

example : (Sparse.fromBitVecC false ceilLog2 ⟨[0b10010#64], 9⟩).result.isOk = true ∧
    (Sparse.fromBitVecC false ceilLog2 ⟨[0b10010#64], 9⟩).steps = if Profile.debug then 22 else 16 := by decide +revert +kernel

/-- `BpTree::from_bit_vector` takes one step for each parenthesis, at most five for each block, and those of the rank/select
vector. -/
theorem C76_tree (lazy : Bool) {bs : Nat} (hbs : 0 < bs) (v : BV) :
    Within (BpTree.fromBitVectorC lazy bs v) (BpTree.fromBitVector bs v)
      (v.len + 5 * ((v.len + bs - 1) / bs) + v.data.length + 2) :=
  (MMT.excessTreeC_within lazy v hbs).bind (b := v.data.length + 2) (by omega) fun _ => (RsVec.fromBitVecC_within v).map

example : (BpTree.fromBitVectorC false 2 ⟨[0b00101011#64], 8⟩).result.isOk = true ∧
    (BpTree.fromBitVectorC false 2 ⟨[0b00101011#64], 8⟩).steps = 21 := by decide +revert +kernel

end Vers
