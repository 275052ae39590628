import Verif.Conformance.EliasFano
import Verif.Model.Wavelet

/-!
# The tests of src/wavelet/tests.rs

The tests named `.._randomized` use random data and are not replayed. Bit vectors are compared with the model of
their `PartialEq`.
-/

namespace Vers.Conformance.WaveletTests

variable [Profile]

/-- `assert_eq!(a, b)` on bit vectors. -/
def eqv (a b : R BV) : R Unit := do
  let x ← a
  let y ← b
  ckR (x.eq y) true

/-- `assert_eq!(a, Some(b))` on bit vectors. -/
def eqs (a : R (Option BV)) (b : R BV) : R Unit := eqv (expect a) b

/-- `assert_eq!(a, None)`. -/
def isNone {α : Type} (a : R (Option α)) : R Unit := do
  let x ← a
  ck x.isNone true

/-- `pack_sequence_u8`, `pack_sequence_u16` and `pack_sequence_u64` of one value. -/
def p8 (x : Word) (k : Nat) : R BV := BV.packSequence 8 [x] k
/-- `pack_sequence_u16` of one value. -/
def p16 (x : Word) (k : Nat) : R BV := BV.packSequence 16 [x] k
/-- `pack_sequence_u64` of one value. -/
def p64 (x : Word) (k : Nat) : R BV := BV.packSequence 64 [x] k

/-- The matrix most tests use. -/
def matrix : R WM := do
  let v ← BV.packSequence 64 [1, 4, 4, 1, 3, 1, 4, 3, 2, 0] 4
  WM.fromBitVec v 4

/-- A matrix of one element of 90 zero bits. -/
def long : R WM := WM.fromBitVec (BV.fromZeros 90) 90

/-- `test_wavelet_encoding_pc`, src/wavelet/tests.rs:7-24. -/
def encodingPc : R Unit := do
  let v ← BV.packSequence 8 [1, 5, 3] 3
  let m ← WM.fromBitVecPc v 3
  ck m.len 3
  eqv (m.getValueUnchecked 0) (p8 1 3)
  eqv (m.getValueUnchecked 1) (p8 5 3)
  eqv (m.getValueUnchecked 2) (p8 3 3)
example : encodingPc = .ok () := by decide +revert +kernel

/-- `test_wavelet_encoding_large_alphabet`, src/wavelet/tests.rs:51-77. -/
def largeAlphabet : R Unit := do
  let v ← BV.packSequence 64 [0, 0, BitVec.allOnes 64, 0, 1, 2] 127
  let v ← (List.range 127).foldlM (fun (v : BV) i => expect (v.set (127 * 3 + i) 1)) v
  let m ← WM.fromBitVec v 127
  ck m.len 6
  eqv (m.getValueUnchecked 0) (pure (BV.fromZeros 127))
  eqv (m.getValueUnchecked 1) (pure (BV.fromZeros 127))
  eqv (m.getValueUnchecked 2) (p64 (BitVec.allOnes 64) 127)
  eqv (m.getValueUnchecked 3) (pure (BV.fromOnes 127))
  eqv (m.getValueUnchecked 4) (p8 1 127)
  eqv (m.getValueUnchecked 5) (p8 2 127)
example : largeAlphabet = .ok () := by decide +revert +kernel

/-- `test_rank_range`, src/wavelet/tests.rs:80-108. -/
def rankRange : R Unit := do
  let m ← matrix
  let s0 := BV.fromZeros 4
  let s1 ← p8 1 4
  let s5 ← p8 5 4
  [(0, 10, 1), (0, 8, 0), (0, 9, 0), (9, 10, 1)].forM fun (p : Nat × Nat × Nat) =>
    ckR (m.rankRangeUnchecked p.1 p.2.1 s0) p.2.2
  [(0, 10, 3), (0, 6, 3), (0, 5, 2), (5, 6, 1)].forM fun (p : Nat × Nat × Nat) =>
    ckR (m.rankRangeUnchecked p.1 p.2.1 s1) p.2.2
  [(0, 10, 0), (0, 5, 0), (5, 10, 0), (1, 2, 0)].forM fun (p : Nat × Nat × Nat) =>
    ckR (m.rankRangeUnchecked p.1 p.2.1 s5) p.2.2
  ckR (m.rankRange 0 11 s0) none
  ckR (m.rankRange 10 10 s1) none
  ckR (m.rankRangeUnchecked 9 9 s0) 0
example : rankRange = .ok () := by decide +revert +kernel

/-- `test_empty_vec_rank` and `test_empty_matrix`, src/wavelet/tests.rs:111-123 and 374-391. -/
def emptyMatrix : R Unit := do
  let m ← WM.fromBitVec BV.new 4
  let s := BV.fromZeros 4
  ck m.len 0
  ckR (m.rankRange 0 0 s) none
  ckR (m.rankRange 0 10 s) none
  ckR (m.rankOffset 10 0 s) none
  ckR (m.rankOffset 0 10 s) none
  ckR (m.rankOffset 0 0 s) none
  ckR (m.rank 0 s) (some 0)
  ckR (m.rank 10 s) none
  ckR (m.rank 100 (BV.fromOnes 4)) none
  ckR (m.select 0 s) none
  ckR (m.select 100 (BV.fromOnes 4)) none
  isNone (m.quantile 0 0 0)
  isNone (m.quantile 0 100 10)
  isNone (m.rangeMax 0 0)
  isNone (m.rangeMax 0 100)
  isNone (m.rangeMin 0 0)
  isNone (m.rangeMin 0 100)
example : emptyMatrix = .ok () := by decide +revert +kernel

/-- `test_rank_bounds`, src/wavelet/tests.rs:150-176. -/
def rankBounds : R Unit := do
  let m ← matrix
  let l ← long
  let s := BV.fromZeros 4
  [(0, 11, none), (11, 0, none), (11, 11, none), (0, 0, some 0)].forM fun (p : Nat × Nat × Option Nat) => do
    ckR (m.rankOffset p.1 p.2.1 s) p.2.2
    ckR (m.rankOffsetU64 p.1 p.2.1 0) p.2.2
  [(0, 11, none), (0, 0, some 0), (11, 11, none)].forM fun (p : Nat × Nat × Option Nat) => do
    ckR (m.rankRange p.1 p.2.1 s) p.2.2
    ckR (m.rankRangeU64 p.1 p.2.1 0) p.2.2
  ckR (l.rankOffset 0 1 (BV.fromZeros 90)) (some 1)
  ckR (l.rankOffsetU64 0 1 0) none
example : rankBounds = .ok () := by decide +revert +kernel

/-- `test_select_range` and `test_select_bounds`, src/wavelet/tests.rs:179-221. -/
def select : R Unit := do
  let m ← matrix
  let l ← long
  let s0 := BV.fromZeros 4
  let s7 := BV.fromOnes 4
  let s4 ← p8 4 4
  ckR (m.selectOffsetUnchecked 0 0 s0) 9
  ckR (m.selectOffsetUnchecked 0 1 s0) 10
  ckR (m.selectOffsetUnchecked 0 0 s7) 10
  ckR (m.selectOffsetUnchecked 0 1 s4) 2
  ckR (m.selectOffsetUnchecked 2 0 s4) 2
  ckR (m.selectOffsetUnchecked 2 1 s4) 6
  ckR (m.selectOffsetUnchecked 2 9 s4) 10
  ckR (m.selectOffset 10 0 s0) none
  ckR (m.selectOffsetU64 10 0 0) none
  ckR (m.selectOffset 0 11 s0) none
  ckR (m.selectOffsetU64 0 11 0) none
  ckR (m.selectOffset 0 0 s7) none
  ckR (m.selectOffsetU64 0 0 15) none
  ckR (m.select 10 s0) none
  ckR (m.selectU64 10 0) none
  ckR (m.select 0 s7) none
  ckR (m.selectU64 0 15) none
  ckR (l.selectOffset 0 0 (BV.fromZeros 90)) (some 0)
  ckR (l.selectOffsetU64 0 1 0) none
example : select = .ok () := by decide +revert +kernel

/-- `test_quantile`, src/wavelet/tests.rs:224-261. -/
def quantile : R Unit := do
  let m ← matrix
  ([(0, 0), (1, 1), (2, 1), (3, 1), (4, 2), (5, 3), (6, 3), (7, 4), (8, 4), (9, 4)] : List (Nat × Word)).forM fun p => do
    eqs (m.quantile 0 10 p.1) (p8 p.2 4)
    ckR (m.quantileU64 0 10 p.1) (some p.2)
  isNone (m.quantile 0 10 10)
  ([(0, 5, 0, 1), (1, 5, 0, 1), (1, 4, 1, 4), (1, 5, 1, 3)] : List (Nat × Nat × Nat × Word)).forM fun p => do
    eqs (m.quantile p.1 p.2.1 p.2.2.1) (p8 p.2.2.2 4)
    ckR (m.quantileU64 p.1 p.2.1 p.2.2.1) (some p.2.2.2)
example : quantile = .ok () := by decide +revert +kernel

/-- `test_convenience_bounds`, src/wavelet/tests.rs:314-371. -/
def convenience : R Unit := do
  let m ← matrix
  let l ← long
  let ld := BV.fromZeros 90
  eqs (m.rangeMax 0 10) (p8 4 4)
  eqv (m.rangeMaxUnchecked 0 10) (p8 4 4)
  ckR (m.rangeMaxU64 0 10) (some 4)
  ckR (m.rangeMaxU64Unchecked 0 10) 4
  isNone (m.rangeMax 0 11)
  isNone (m.rangeMaxU64 0 11)
  isNone (m.rangeMax 1 1)
  isNone (m.rangeMaxU64 1 1)
  eqs (l.rangeMax 0 1) (pure ld)
  isNone (l.rangeMaxU64 0 1)
  eqs (m.rangeMin 0 10) (p8 0 4)
  eqv (m.rangeMinUnchecked 0 10) (p8 0 4)
  ckR (m.rangeMinU64 0 10) (some 0)
  ckR (m.rangeMinU64Unchecked 0 10) 0
  isNone (m.rangeMin 0 11)
  isNone (m.rangeMinU64 0 11)
  isNone (m.rangeMin 1 1)
  isNone (m.rangeMinU64 1 1)
  eqs (l.rangeMin 0 1) (pure ld)
  isNone (l.rangeMinU64 0 1)
  eqs (m.rangeMedian 0 10) (p8 2 4)
  eqv (m.rangeMedianUnchecked 0 10) (p8 2 4)
  ckR (m.rangeMedianU64 0 10) (some 2)
  ckR (m.rangeMedianU64Unchecked 0 10) 2
  isNone (m.rangeMedian 0 11)
  isNone (m.rangeMedianU64 0 11)
  isNone (m.rangeMedian 1 1)
  isNone (m.rangeMedianU64 1 1)
  eqs (l.rangeMedian 0 1) (pure ld)
  isNone (l.rangeMedianU64 0 1)
example : convenience = .ok () := by decide +revert +kernel

/-- One expected answer of `predecessor` or `successor`, for bit vectors and for numbers. -/
def search (m : WM) (k : Nat) (succ : Bool) (p : Nat × Nat × Word × Option Word) : R Unit := do
  let q ← p16 p.2.2.1 k
  ckR (if succ then m.successorU64 p.1 p.2.1 p.2.2.1 else m.predecessorU64 p.1 p.2.1 p.2.2.1) p.2.2.2
  let r := if succ then m.successor p.1 p.2.1 q else m.predecessor p.1 p.2.1 q
  match p.2.2.2 with
  | none => isNone r
  | some x => eqs r (p16 x k)

/-- `test_predecessor` and `test_predecessor_large_gap`, src/wavelet/tests.rs:394-511. -/
def predecessor : R Unit := do
  let v ← BV.packSequence 64 [1, 10, 1, 3, 9, 5] 4
  let m ← WM.fromBitVec v 4
  [(0, 6, 0, none), (0, 6, 1, some 1), (0, 6, 2, some 1), (0, 6, 3, some 3), (0, 6, 4, some 3), (0, 6, 9, some 9),
    (0, 6, 10, some 10), (0, 6, 11, some 10), (0, 6, 15, some 10), (2, 4, 5, some 3), (0, 3, 3, some 1),
    (3, 6, 10, some 9), (3, 5, 1, none), (5, 6, 4, none)].forM (search m 4 false)
  let v ← BV.packSequence 64 [3, 9000] 16
  let m ← WM.fromBitVec v 16
  [(0, 2, 0, none), (0, 2, 3, some 3), (0, 2, 4, some 3), (0, 2, 8000, some 3), (0, 2, 8999, some 3),
    (0, 2, 9000, some 9000), (0, 2, 10000, some 9000)].forM (search m 16 false)
example : predecessor = .ok () := by decide +revert +kernel

/-- `test_successor` and `test_successor_large_gap`, src/wavelet/tests.rs:514-593. -/
def successor : R Unit := do
  let v ← BV.packSequence 64 [1, 10, 1, 3, 9, 5] 4
  let m ← WM.fromBitVec v 4
  [(0, 6, 0, some 1), (0, 6, 1, some 1), (0, 6, 2, some 3), (0, 6, 3, some 3), (0, 6, 4, some 5), (0, 6, 9, some 9),
    (0, 6, 10, some 10), (0, 6, 11, none), (0, 6, 15, none)].forM (search m 4 true)
  let v ← BV.packSequence 64 [3, 9000] 16
  let m ← WM.fromBitVec v 16
  [(0, 2, 0, some 3), (0, 2, 3, some 3), (0, 2, 4, some 9000), (0, 2, 9000, some 9000),
    (0, 2, 10000, none)].forM (search m 16 true)
example : successor = .ok () := by decide +revert +kernel

/-- Calls of `next` and `next_back` with the expected items; `f` compares them. -/
def run {α : Type} (ops : VecOps α) (f : R (Option α) → Option Word → R Unit) (it : GenIter)
    (l : List (Bool × Option Word)) : R Unit := do
  let _ ← l.foldlM (fun (it : GenIter) p => do
    let q ← if p.1 then it.nextBack ops else it.next ops
    f (pure q.2) p.2
    pure q.1) it

/-- Comparison of a bit vector of 4 or 1 bits. -/
def itemBV (k : Nat) (a : R (Option BV)) : Option Word → R Unit
  | none => isNone a
  | some x => eqs a (p64 x k)

/-- Comparison of a number. -/
def itemNum (a : R (Option Word)) (b : Option Word) : R Unit := ckR a b

/-- `test_wavelet_iter`, src/wavelet/tests.rs:628-671. -/
def iter : R Unit := do
  let m ← matrix
  let all : List (Option Word) := [some 1, some 4, some 4, some 1, some 3, some 1, some 4, some 3, some 2, some 0, none]
  run m.valueOps (itemBV 4) (GenIter.new m.valueOps) (all.map fun x => (false, x))
  run m.valueOps (itemBV 4) (GenIter.new m.valueOps) [(false, some 1), (true, some 0), (true, some 2),
    (false, some 4), (false, some 4), (true, some 3), (true, some 4), (false, some 1), (false, some 3),
    (false, some 1), (false, none), (true, none)]
  let it ← unwrapR m.iterU64
  run m.numOps itemNum it (all.map fun x => (false, x))
example : iter = .ok () := by decide +revert +kernel

/-- `test_wavelet_into_iter` and `test_wavelet_empty_iter`, src/wavelet/tests.rs:675-686 and 713-724. -/
def intoIter : R Unit := do
  let v ← BV.packSequence 64 [1] 1
  let m ← WM.fromBitVec v 1
  run m.valueOps (itemBV 1) (GenIter.new m.valueOps) [(false, some 1), (false, none)]
  let it ← unwrapR m.iterU64
  run m.numOps itemNum it [(false, some 1), (false, none)]
  let m ← WM.fromBitVec BV.new 4
  run m.valueOps (itemBV 4) (GenIter.new m.valueOps) [(true, none), (false, none)]
  let it ← unwrapR m.iterU64
  run m.numOps itemNum it [(true, none), (false, none)]
example : intoIter = .ok () := by decide +revert +kernel

/-- `test_sorted_iter`, src/wavelet/tests.rs:727-746. -/
def sortedIter : R Unit := do
  let v ← BV.packSequence 64 [1, 4, 4, 1, 3, 1, 4, 3, 13, 11, 12, 13, 2, 0, 4, 6, 7, 5, 8, 9, 10] 4
  let m ← WM.fromBitVec v 4
  let all : List (Option Word) := [some 0, some 1, some 1, some 1, some 2, some 3, some 3, some 4, some 4, some 4,
    some 4, some 5, some 6, some 7, some 8, some 9, some 10, some 11, some 12, some 13, some 13, none]
  run m.sortedOps (itemBV 4) m.iterSorted (all.map fun x => (false, x))
  let it ← unwrapR m.iterSortedU64
  run m.sortedNumOps itemNum it (all.map fun x => (false, x))
example : sortedIter = .ok () := by decide +revert +kernel

/-- `test_from_padded_bitvec`, src/wavelet/tests.rs:749-766. -/
def padded : R Unit := do
  let v ← BV.new.appendBit 1
  let v ← v.appendBit 0
  let v ← v.appendBits (BitVec.allOnes 64) 10
  let v ← (v.dropLast 10).appendBit 0
  let m ← WM.fromBitVec (v.dropLast 1) 1
  ck m.len 2
  ckR (m.rank 1 (BV.fromZeros 1)) (some 0)
  ckR (m.rank 1 (BV.fromOnes 1)) (some 1)
  ckR (m.rank 2 (BV.fromZeros 1)) (some 1)
  ckR (m.rank 2 (BV.fromOnes 1)) (some 1)
  ckR (m.rank 3 (BV.fromZeros 1)) none
example : padded = .ok () := by decide +revert +kernel

end Vers.Conformance.WaveletTests
