import Verif.Conformance.Basic
import Verif.Model.Rmq

/-!
# The tests of src/rmq/binary_rmq/tests.rs and src/rmq/fast_rmq/tests.rs

`randomized_test` and `test_fast_rmq_unsorted` use random data and are not replayed. `test_iter` iterates the slice
the structures dereference to, which is the field `data` of the model.
-/

namespace Vers.Conformance.RmqTests

variable [Profile]

/-- `small_test`, src/rmq/binary_rmq/tests.rs:5-16. -/
def small : R Unit := do
  let r ← BinRmq.fromVec [9, 6, 10, 4, 0, 8, 3, 7, 1, 2, 5]
  [(0, 0, 0), (0, 1, 1), (0, 2, 1), (0, 3, 3), (5, 8, 8), (5, 9, 8), (9, 10, 9), (0, 10, 4)].forM
    fun (p : Nat × Nat × Nat) => ckR (r.rangeMin p.1 p.2.1) p.2.2
example : small = .ok () := by decide +revert +kernel

/-- `test_iter`, `test_range_operators` and `test_empty_rmq`, src/rmq/binary_rmq/tests.rs:44-70. -/
def binary : R Unit := do
  let r ← BinRmq.fromVec [1, 2, 3, 4, 5]
  ck r.data [1, 2, 3, 4, 5]
  let r ← BinRmq.fromVec [5, 4, 3, 2, 1]
  ckR (r.rangeMin 0 3) 3
  ckR (r.rangeMinWithRange (.included 0) (.excluded 3)) 2
  ckR (r.rangeMinWithRange (.included 0) (.included 3)) 3
  let r ← BinRmq.fromVec []
  ck r.data.isEmpty true
example : binary = .ok () := by decide +revert +kernel

/-- `test_small_bit_vector_rank0` and `test_small_bit_vector_select0`, src/rmq/fast_rmq/tests.rs:5-38. -/
def smallBV : R Unit := do
  let v ← [1, 3, 64, 65].foldlM (fun (v : SmallBV) i => v.setBit i) 0
  [(0, 0), (1, 1), (2, 1), (3, 2), (4, 2), (64, 62), (65, 62), (66, 62), (67, 63)].forM
    fun (p : Nat × Nat) => ckR (v.rank0 p.1) p.2
  [(0, 0), (1, 2), (2, 4), (3, 5), (64, 68)].forM fun (p : Nat × Nat) => ckR (v.select0 p.1) p.2
example : smallBV = .ok () := by decide +revert +kernel

/-- `test_fast_rmq`, src/rmq/fast_rmq/tests.rs:41-61. The input is increasing, so that the minimum is at the start of
the range. Of the ranges the replay takes those with both ends in a sample around the block boundaries. -/
def fast : R Unit := do
  let r ← FastRmq.fromVec ((List.range 256).map fun i => BitVec.ofNat 64 i)
  let s := [0, 1, 31, 63, 64, 65, 100, 126, 127, 128, 129, 150, 190, 191, 192, 193, 254, 255]
  s.forM fun i => (s.filter fun j => i ≤ j).forM fun j => ckR (r.rangeMin i j) i
example : fast = .ok () := by decide +revert +kernel

/-- `test_iter`, `test_range_operators` and `test_empty_rmq`, src/rmq/fast_rmq/tests.rs:88-115. -/
def fastEnds : R Unit := do
  let r ← FastRmq.fromVec [1, 2, 3, 4, 5]
  ck r.data [1, 2, 3, 4, 5]
  let r ← FastRmq.fromVec [5, 4, 3, 2, 1]
  ckR (r.rangeMin 0 3) 3
  ckR (r.rangeMinWithRange (.included 0) (.excluded 3)) 2
  ckR (r.rangeMinWithRange (.included 0) (.included 3)) 3
  let _ ← FastRmq.fromVec []
example : fastEnds = .ok () := by decide +revert +kernel

end Vers.Conformance.RmqTests
