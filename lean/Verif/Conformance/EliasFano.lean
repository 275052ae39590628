import Verif.Conformance.RsVec
import Verif.Model.EliasFanoIter
import Verif.Model.Sparse
import Verif.Props.EliasFano

/-!
# The tests of src/elias_fano/tests.rs and src/bit_vec/sparse.rs

The logarithm is instantiated by the exact one. `test_randomized_elias_fano`, `large_clustered_rng`,
`test_iter_randomized`, `test_randomized_elias_fano_successor` and `test_fuzzy` use random data and are not replayed.
-/

namespace Vers.Conformance.EliasFanoTests

variable [Profile]

/-- `EliasFanoVec::from_slice`. -/
def ef (l : List Word) : R EF := EF.fromSlice ceilLog2 l

/-- `u64::MAX`. -/
def umax : Word := BitVec.allOnes 64

/-- A sequence of queries with the expected answers. -/
def table {α β : Type} [DecidableEq β] (f : α → R β) (l : List (α × β)) : R Unit :=
  l.forM fun p => ckR (f p.1) p.2

/-- Calls in sequence, and their results. -/
def run (e : EF) (it : EfIter) (l : List (Bool × Option Word)) : R EfIter :=
  l.foldlM (fun (it : EfIter) p => do
    let q ← if p.1 then it.nextBack e else it.next e
    ck q.2 p.2
    pure q.1) it

/-- `collect`, or `rev().collect()`, of an iterator with at most `n` elements left. -/
def drain (e : EF) (back : Bool) : Nat → EfIter → R (List Word)
  | 0, _ => pure []
  | n + 1, it => do
    let q ← if back then it.nextBack e else it.next e
    match q.2 with
    | none => pure []
    | some x => do
      let r ← drain e back n q.1
      pure (x :: r)

/-- `is_ok()` of `advance_by` or `advance_back_by`, with the iterator afterwards. -/
def adv (e : EF) (it : EfIter) (back : Bool) (n : Nat) (ok : Bool) : R EfIter := do
  let r ← if back then it.advanceBackBy e n else it.advanceBy e n
  match r with
  | .ok it' => ck true ok; pure it'
  | .error _ => ck false ok; pure it

/-- `test_elias_fano`, `test_edge_case`, `test_large_query` and `test_duplicates`,
src/elias_fano/tests.rs:7-50. -/
def basic : R Unit := do
  let e ← ef [0, 1, 4, 7]
  ck e.len 4
  table (fun i => e.getUnchecked i) [(0, 0), (1, 1), (2, 4), (3, 7)]
  table (fun i => e.predecessorUnchecked i) [(0, 0), (1, 1), (2, 1), (5, 4), (8, 7)]
  let e ← ef [0, 1, umax - 10, umax - 1]
  ckR (e.predecessorUnchecked (umax - 11)) 1
  let e ← ef [0, 1, 2, 3]
  ckR (e.predecessorUnchecked umax) 3
  let e ← ef [0, 0, 0, 1, 1, 1, 2, 2, 2]
  table (fun i => e.predecessorUnchecked i) [(0, 0), (1, 1), (2, 2)]
  table (fun i => e.getUnchecked i) [(2, 0), (3, 1), (5, 1), (8, 2)]
example : basic = .ok () := by decide +revert +kernel

/-- `test_clustered_ef`, src/elias_fano/tests.rs:92-137, with clusters of 40 elements instead of 1000. -/
def clustered : R Unit := do
  let seq := [0, 250000, 500000000, 750000000000].flatMap fun s =>
    (List.range 40).map fun i => BitVec.ofNat 64 (s + i)
  let e ← ef seq
  (List.range 160).forM fun i => do
    let x := seq.getD i 0
    ckR (e.getUnchecked i) x
    ckR (e.predecessorUnchecked x) x
    ckR (e.successorUnchecked x) x
  table (fun i => e.predecessorUnchecked i) [(1001, 39), (5000, 39), (50000, 39), (249999, 39),
    (500001001, 500000039), (500002000, 500000039)]
  table (fun i => e.successorUnchecked i) [(1001, 250000), (249999, 250000), (1000000, 500000000),
    (499999999, 500000000)]
example : clustered = .ok () := by decide +revert +kernel

/-- `test_iter`, src/elias_fano/tests.rs:180-229. The owning iterator is the same function of the model. -/
def iter : R Unit := do
  let e ← ef [0, 1, 2, 3, 4, 5, 6, 7, 8]
  let it ← EfIter.new e
  let _ ← run e it [(false, some 0), (false, some 1), (false, some 2), (false, some 3), (false, some 4),
    (false, some 5), (false, some 6), (false, some 7), (false, some 8), (false, none), (false, none)]
  let _ ← run e it [(true, some 8), (true, some 7), (true, some 6), (true, some 5), (true, some 4),
    (true, some 3), (true, some 2), (true, some 1), (true, some 0), (true, none), (true, none)]
  let _ ← run e it [(false, some 0), (true, some 8), (false, some 1), (true, some 7), (false, some 2),
    (true, some 6), (false, some 3), (true, some 5), (false, some 4), (true, none), (false, none), (true, none),
    (false, none)]
  ckR (drain e false 10 it) [0, 1, 2, 3, 4, 5, 6, 7, 8]
example : iter = .ok () := by decide +revert +kernel

/-- `test_custom_iter_behavior`, src/elias_fano/tests.rs:232-280. `skip(n)` followed by a call is a call of `nth`
with `n - 1` and then the call. -/
def customIter : R Unit := do
  let e ← ef [0, 1, 2, 3, 4, 5, 6, 7, 8]
  let it ← EfIter.new e
  let q ← it.nth e 2
  ck q.2 (some 2)
  ck it.pos.len 9
  let q ← it.nth e 1
  ck q.1.pos.len 7
  ckR (it.last e) (some 8)
  let q ← it.nth e 10
  ck q.2 none
  let q ← it.nth e 2
  ckR (q.1.minItem e) (some 3)
  let _ ← adv e it false 9 true
  let _ ← adv e it true 9 true
  let _ ← adv e it false 10 false
  let _ ← adv e it true 10 false
  let i1 ← adv e it false 5 true
  let i1 ← adv e i1 true 6 false
  let i1 ← adv e i1 false 6 false
  let _ ← adv e i1 true 4 true
  let q ← it.nth e 2
  ck q.2 (some 2)
  let q ← q.1.nthBack e 4
  ck q.2 (some 4)
  let q ← q.1.next e
  ck q.2 (some 3)
  ck q.1.pos.len 0
  let _ ← run e q.1 [(false, none), (true, none)]
  let i1 ← adv e it false 5 true
  let i1 ← adv e i1 true 2 true
  ckR (drain e false 10 i1) [5, 6]
  ckR (i1.last e) (some 6)
  ckR (i1.minItem e) (some 5)
  ckR (drain e true 10 i1) [6, 5]
example : customIter = .ok () := by decide +revert +kernel

/-- `test_empty_iter`, src/elias_fano/tests.rs:283-316. -/
def emptyIter : R Unit := do
  let e ← ef []
  let it ← EfIter.new e
  ck it.pos.len 0
  let it ← run e it [(false, none), (true, none)]
  let q ← it.nth e 20
  ck q.2 none
  let q ← q.1.nthBack e 20
  ck q.2 none
  let it ← adv e q.1 false 0 true
  let it ← adv e it true 0 true
  let it ← adv e it false 100 false
  let _ ← adv e it true 100 false
  let e ← ef [0]
  let it ← EfIter.new e
  ck it.pos.len 1
  let it ← adv e it false 1 true
  ck it.pos.len 0
  let it ← adv e it false 0 true
  let it ← adv e it true 0 true
  let it ← adv e it false 1 false
  let _ ← adv e it true 1 false
  let e ← ef [1]
  let it ← EfIter.new e
  ck it.pos.len 1
  let it ← adv e it true 1 true
  ck it.pos.len 0
  let it ← adv e it true 0 true
  let it ← adv e it false 0 true
  let it ← adv e it true 1 false
  let _ ← adv e it false 1 false
example : emptyIter = .ok () := by decide +revert +kernel

/-- `test_successor`, `test_edge_case_successor`, `test_large_query_successor` and `test_duplicates_successor`,
src/elias_fano/tests.rs:352-386. -/
def succ : R Unit := do
  let e ← ef [0, 1, 4, 7]
  ck e.len 4
  table (fun i => e.successorUnchecked i) [(0, 0), (1, 1), (2, 4), (5, 7)]
  ckR (e.successor 8) none
  let e ← ef [0, 1, umax - 10, umax - 1]
  table (fun i => e.successorUnchecked i) [(2, umax - 10), (umax - 11, umax - 10), (umax - 10, umax - 10),
    (umax - 9, umax - 1)]
  let e ← ef [0, 1, 2, 3]
  ckR (e.successor umax) none
  let e ← ef [0, 0, 0, 1, 1, 1, 2, 2, 2]
  table (fun i => e.successorUnchecked i) [(0, 0), (1, 1), (2, 2)]
  ckR (e.successor 3) none
example : succ = .ok () := by decide +revert +kernel

/-- `test_rank`, `test_oob_rank` and `test_rank_last_element_of_large_bucket`, src/elias_fano/tests.rs:423-446 and
528-538. -/
def rank : R Unit := do
  let e ← ef [0, 1, 1, 4, 4, 4, 4, 4, 7, 99, 101, 102, 150]
  table (fun i => e.rank i) [(0, 0), (1, 1), (4, 3), (5, 8), (7, 8), (8, 9), (99, 9), (3000, 13)]
  let e ← ef [1000]
  table (fun i => e.rank i) [(1000, 0), (1001, 1), (1002, 1), (10000, 1), (umax, 1), (0, 0), (1, 0)]
  let l : List Word := [0, 500, 600, 800, 900, 1001, 1002, 1003, 1004, 3000]
  let e ← ef l
  (List.range 10).forM fun i => ckR (e.rank (l.getD i 0)) (BitVec.ofNat 64 i)
example : rank = .ok () := by decide +revert +kernel

/-- `test_rank_binary_search`, src/elias_fano/tests.rs:449-493. -/
def rankBinarySearch : R Unit := do
  forRange 10 60 fun length => do
    let e ← ef ([0, 1] ++ List.replicate length 10 ++ [20, 30])
    table (fun i => e.rank i) [(0, 0), (1, 1), (10, 2), (11, BitVec.ofNat 64 length + 2)]
  forRange 10 60 fun length => do
    let e ← ef ([0, 1] ++ List.replicate 16 10 ++ List.replicate length 11 ++ [20, 30])
    table (fun i => e.rank i) [(0, 0), (1, 1), (10, 2), (11, 18), (12, 18 + BitVec.ofNat 64 length)]
example : rankBinarySearch = .ok () := by decide +revert +kernel

/-- `test_delta`, `test_delta_non_zero` and `test_empty_ef_vec`, src/elias_fano/tests.rs:496-526. -/
def delta : R Unit := do
  let e ← ef [0, 1, 4, 7]
  table e.delta [(0, some 0), (1, some 1), (2, some 3), (3, some 3), (4, none), (5, none)]
  let e ← ef [100, 101, 102, 103]
  table e.delta [(0, some 100), (1, some 1)]
  let e ← ef []
  ck e.len 0
  ckR (e.successor 0) none
  ckR (e.successor umax) none
  ckR (e.predecessor 0) none
  ckR (e.predecessor umax) none
  ckR (e.get 0) none
  ckR (e.rank 3) 0
  ckR (e.delta 0) none
example : delta = .ok () := by decide +revert +kernel

/-- `test_sparse_rank`, `test_sparse_select`, `test_sparse_rank0`, `test_sparse_get`,
src/bit_vec/sparse.rs:263-311 and 329-346. -/
def sparse : R Unit := do
  let s ← Sparse.new ceilLog2 [1, 3, 5, 7, 9] 12
  table s.rank1 [(0, 0), (1, 0), (2, 1), (3, 1), (4, 2), (5, 2), (6, 3), (7, 3), (8, 4), (9, 4), (10, 5), (11, 5),
    (12, 5), (999, 5)]
  table s.select1 [(0, 1), (1, 3), (2, 5), (3, 7), (4, 9), (5, 12), (6, 12)]
  table s.rank0 [(0, 0), (1, 1), (2, 1), (3, 2), (4, 2), (5, 3), (6, 3), (7, 4), (8, 4), (9, 5), (10, 5), (11, 6),
    (12, 7), (999, 7)]
  table s.get [(0, some 0), (1, some 1), (2, some 0), (3, some 1), (4, some 0), (5, some 1), (6, some 0),
    (7, some 1), (8, some 0), (9, some 1), (10, some 0), (11, some 0), (12, none), (999, none)]
example : sparse = .ok () := by decide +revert +kernel

/-- `test_empty_sparse` and `test_large_block`, src/bit_vec/sparse.rs:313-327 and 373-385. -/
def sparseEnds : R Unit := do
  let s ← Sparse.new ceilLog2 [] 0
  table s.rank1 [(0, 0), (1, 0), (999, 0)]
  table s.select1 [(0, 0), (1, 0), (999, 0)]
  table s.rank0 [(0, 0), (1, 0), (999, 0)]
  ck s.len 0
  let s ← Sparse.new ceilLog2 [1, 100000, 100001, 100002, 100003, 100004, 100005, 100006, 100007, 100008, 100009,
    100010, 1000000] 2000000
  ckR (s.rank1 100008) 9
  ckR (s.rank1 100012) 12
example : sparseEnds = .ok () := by decide +revert +kernel

/-- `test_from_bitvector` and `test_from_padded_bitvec`, src/bit_vec/sparse.rs:348-372 and 411-427. -/
def sparseBitVec : R Unit := do
  let v ← (BV.fromOnes 12).flipBit 6
  let v ← v.flipBit 7
  let s ← Sparse.fromBitVec ceilLog2 v
  table s.rank1 [(0, 0), (1, 1), (2, 2), (7, 6), (8, 6), (9, 7), (12, 10)]
  let s ← Sparse.fromBitVecInverted ceilLog2 v
  table s.rank1 [(0, 0), (1, 0), (2, 0), (7, 1), (8, 2), (9, 2), (12, 2)]
  let v ← BV.new.appendBit 1
  let v ← v.appendBit 0
  let v ← v.appendBits umax 10
  let v ← (v.dropLast 10).appendBit 0
  let s ← Sparse.fromBitVec ceilLog2 (v.dropLast 1)
  ck s.len 2
  ckR (s.get 0) (some 1)
  ckR (s.get 1) (some 0)
  let it ← s.iter1
  ckR (drain s.vec false 3 it) [0]
example : sparseBitVec = .ok () := by decide +revert +kernel

end Vers.Conformance.EliasFanoTests
