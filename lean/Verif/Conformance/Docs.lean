import Verif.Conformance.EliasFano
import Verif.Conformance.Wavelet
import Verif.Conformance.Bp
import Verif.Conformance.Rmq
import Verif.Model.BitSet
import Verif.Model.RsIter

/-!
# The examples in the documentation of the crate

The examples are compiled and run by `cargo test`, like the unit tests. Examples that repeat a call of the unit tests
word by word are left out.
-/

namespace Vers.Conformance.DocTests

variable [Profile]

open WaveletTests (eqs eqv p8 isNone)
open EliasFanoTests (ef table drain)
open BpTests (collect)

/-- `BitVec`, `from_bits`, `from_bits_iter`, src/bit_vec/mod.rs:47-57, 116-123 and 200-211. -/
def construct : R Unit := do
  let v ← BV.new.appendBit 0
  let v ← v.appendBitU32 1
  let v ← v.appendWord 0b1010101010101010
  ck v.len 66
  ckR (v.get 0) (some 0)
  ckR (v.get 1) (some 1)
  let v ← BV.fromBits [1, 0, 1, 1, 1, 1]
  ck v.len 6
  ckR (v.getBits 0 6) (some 0b111101)
  let w ← BV.fromBools [true, false, true, true, true, true]
  ckR (w.getBits 0 6) (some 0b111101)
  ckR (w.eq v) true
example : construct = .ok () := by decide +revert +kernel

/-- `from_limbs`, `from_vec`, `from_limbs_iter`, src/bit_vec/mod.rs:241-250, 273-283 and 306-315. -/
def limbs : R Unit := do
  let v := BV.fromLimbs [0, 256, BitVec.allOnes 64]
  ck v.len 192
  ckR (v.getBits 0 64) (some 0)
  ckR (v.get 72) (some 1)
  ckR (v.getBits 128 64) (some (BitVec.allOnes 64))
  let v := BV.fromLimbs (List.replicate 10 0xaaaaaaaaaaaaaaaa)
  ck v.len 640
  forRange 0 640 fun i => ckR (v.get i) (some (if i % 2 = 1 then 1 else 0))
example : limbs = .ok () := by decide +revert +kernel

/-- `pack_sequence_u64` to `pack_from_iter_u8`, src/bit_vec/mod.rs:387-647. -/
def pack : R Unit := do
  [64, 32, 16, 8].forM fun b => do
    let v ← BV.packSequence b [0b1010, 0b1100, 0b1111] 4
    ck v.len 12
    ckR (v.getBits 0 4) (some 0b1010)
    ckR (v.getBits 4 4) (some 0b1100)
    ckR (v.getBits 8 4) (some 0b1111)
  let v ← BV.packSequence 64 [10, 100, 124, 45, 223] 8
  ckR (v.unpackElement 0 8) (some 10)
  ckR (v.unpackElement 2 8) (some 124)
example : pack = .ok () := by decide +revert +kernel

/-- `from_bools`, `append`, `drop_last`, `append_bit`, `append_word`, `append_bits`, `flip_bit`, `get`, `set`,
`is_bit_set`, src/bit_vec/mod.rs:663-1129. -/
def modify : R Unit := do
  let v ← BV.fromBools [true, false, true, true]
  ck v.len 4
  [(0, true), (1, false), (2, true), (3, true)].forM fun (p : Nat × Bool) => ckR (v.isBitSet p.1) (some p.2)
  let s ← BV.fromBits [1, 0, 1, 1, 1, 1]
  let v := s.dropLast 3
  ck v.len 3
  ckR (v.getBits 0 3) (some 0b101)
  ck (v.dropLast 4).len 0
  let v ← BV.new.appendBit 1
  let v ← v.appendBit 0
  ck v.len 2
  ckR (v.get 0) (some 1)
  ckR (v.get 1) (some 0)
  let v ← BV.new.appendWord 0b1010101010101010
  ck v.len 64
  forRange 0 64 fun i => ckR (v.get i) (some ((0b1010101010101010#64 >>> i) &&& 1))
  let v ← BV.new.appendBits 0b1010101010101010 16
  ck v.len 16
  ckR (v.getBits 0 16) (some 0b1010101010101010)
  let v ← s.flipBit 1
  ck v.len 6
  ckR (v.getBits 0 6) (some 0b111111)
  let v ← expect (s.set 1 1)
  ck v.len 6
  ckR (v.getBits 0 6) (some 0b111111)
  ckR (s.isBitSet 1) (some false)
  ckR (s.isBitSet 2) (some true)
example : modify = .ok () := by decide +revert +kernel

/-- `RsVec`, `into_bit_vec`, `SelectIter` and `BitSetIter`, src/bit_vec/fast_rs_vec/mod.rs:81-89 and 397-410,
src/bit_vec/fast_rs_vec/iter.rs:442-455, src/bit_vec/fast_rs_vec/bitset.rs:57-70. -/
def rsVec : R Unit := do
  let m := BitVec.allOnes 64
  let rs ← RsVec.fromBitVec (BV.fromLimbs [m])
  ckR (rs.rank false 64) 64
  ckR (rs.select false 64) 64
  let v ← rs.intoBitVec.flipBit 32
  let rs ← RsVec.fromBitVec v
  ckR (rs.rank false 64) 63
  ckR (rs.select true 0) 32
  let v ← (BV.fromLimbs [m, m]).flipBit 4
  let rs ← RsVec.fromBitVec v
  let it ← SelIter.new rs true
  ckR (collect (fun (s : SelIter) => s.next rs true) 3 it) [4]
  let it ← BsIter.new rs true
  ckR (collect (fun (s : BsIter) => s.next rs true) 3 it) [4]
example : rsVec = .ok () := by decide +revert +kernel

/-- `EliasFanoVec`, `delta` and `SparseRSVec`, src/elias_fano/mod.rs:32-55 and 526-534, src/bit_vec/sparse.rs:17-40 and
112-123. -/
def eliasFano : R Unit := do
  let e ← ef [0, 9, 29, 109]
  ck e.len 4
  ckR (e.get 0) (some 0)
  ckR (e.get 3) (some 109)
  table (fun x => e.predecessor x) [(9, some 9), (10, some 9), (420000, some 109)]
  ckR (e.successor 1) (some 9)
  ckR (e.predecessorUnchecked 8) 0
  let it ← EfIter.new e
  ckR (drain e false 5 it) [0, 9, 29, 109]
  table e.delta [(0, some 0), (1, some 9), (2, some 20), (3, some 80)]
  let v ← (BV.fromZeros 12).flipBit 6
  let v ← v.flipBit 7
  let s ← Sparse.fromBitVec ceilLog2 v
  ckR (s.rank1 5) 0
  ckR (s.select1 0) 6
  let v ← (BV.fromOnes 12).flipBit 6
  let v ← v.flipBit 7
  let s ← Sparse.fromBitVecInverted ceilLog2 v
  ckR (s.select1 1) 7
example : eliasFano = .ok () := by decide +revert +kernel

/-- `BinaryRmq` and `FastRmq`, src/rmq/binary_rmq/mod.rs:19-27 and src/rmq/fast_rmq/mod.rs:72-80. -/
def rmq : R Unit := do
  let b ← BinRmq.fromVec [4, 10, 3, 11, 2, 12]
  let f ← FastRmq.fromVec [4, 10, 3, 11, 2, 12]
  [(0, 1, 0), (0, 2, 2), (0, 3, 2)].forM fun (p : Nat × Nat × Nat) => do
    ckR (b.rangeMin p.1 p.2.1) p.2.2
    ckR (f.rangeMin p.1 p.2.1) p.2.2
example : rmq = .ok () := by decide +revert +kernel

/-- `BpTree`, src/trees/bp/mod.rs:87-126 and 518-531. -/
def bpTree (k : Lookup.Variant) : R Unit := do
  let b ← BpBuilder.calls [true, true, true, false, true, false, false, true, false, false] BpBuilder.new
  let r ← b.build 512
  match r with
  | .error _ => .error .unwrap
  | .ok t => do
    ck t.root (some 0)
    ckR (t.firstChild 0) (some 1)
    ckR (t.nextSibling 512 k 1) (some 7)
    ckR (t.nextSibling 512 k 7) none
    ckR (t.depth 2) 2
    ckR (t.depth 7) 1
    let v ← BV.packSequence 8 [0b11010111, 0b00100100] 8
    let t ← BpTree.fromBitVector 4 v
    let it ← t.dfsIter
    ckR (collect (fun (s : SelIter) => s.next t.vec false) 9 it) [0, 1, 2, 4, 6, 7, 10, 13]
    ckR t.size 8
    let v ← t.intoParenthesesVec.intoBitVec.flipBit 15
    let v ← v.appendBits 0 2
    let t ← BpTree.fromBitVector 4 v
    ckR t.size 9
example : bpTree .u8 = .ok () := by decide +revert +kernel
example : bpTree .u16 = .ok () := by decide +revert +kernel

/-- `WaveletMatrix` and its accesses, ranks and selects, src/wavelet/mod.rs:43-52, 320-374, 446-453, 510-517, 573-580,
638-645, 689-696, 739-746, 812-821, 891-900, 948-955 and 1002-1009. -/
def wavelet : R Unit := do
  let v ← BV.packSequence 8 [1, 4, 4, 1, 2, 7] 3
  let m ← WM.fromBitVec v 3
  ckR (m.getU64 0) (some 1)
  ckR (m.getU64 1) (some 4)
  ckR (m.getU64 100) none
  eqs (m.getValue 0) (p8 1 3)
  eqs (m.getValue 1) (p8 4 3)
  isNone (m.getValue 100)
  let s4 ← p8 4 3
  let s1 ← p8 1 3
  ckR (m.rankRange 0 3 s4) (some 2)
  ckR (m.rankRange 2 4 s4) (some 1)
  ckR (m.rankRangeU64 0 3 4) (some 2)
  ckR (m.rankRangeU64 2 4 4) (some 1)
  ckR (m.rankOffset 0 3 s4) (some 2)
  ckR (m.rankOffset 2 4 s4) (some 1)
  ckR (m.rankOffsetU64 0 3 4) (some 2)
  ckR (m.rankOffsetU64 2 4 4) (some 1)
  ckR (m.rank 3 s4) (some 2)
  ckR (m.rank 3 s1) (some 1)
  ckR (m.rankU64 3 4) (some 2)
  ckR (m.rankU64 3 1) (some 1)
  [(0, 0, some 1), (0, 1, some 2), (2, 0, some 2), (2, 1, none)].forM fun (p : Nat × Nat × Option Nat) => do
    ckR (m.selectOffset p.1 p.2.1 s4) p.2.2
    ckR (m.selectOffsetU64 p.1 p.2.1 4) p.2.2
  [(0, some 1), (1, some 2)].forM fun (p : Nat × Option Nat) => do
    ckR (m.select p.1 s4) p.2
    ckR (m.selectU64 p.1 4) p.2
example : wavelet = .ok () := by decide +revert +kernel

/-- The order statistics of `WaveletMatrix`, src/wavelet/mod.rs:1094-1102, 1137-1145, 1223-1231, 1269-1277, 1312-1320,
1353-1361, 1395-1402, 1441-1448, 1491-1499, 1542-1550, 1669-1677, 1715-1723, 1856-1864, 1902-1910, 1942-1949 and
1995-2002. -/
def waveletOrder : R Unit := do
  let v ← BV.packSequence 8 [1, 4, 4, 1, 2, 7] 3
  let m ← WM.fromBitVec v 3
  [(0, 3, 0, 1), (0, 3, 1, 4), (1, 4, 0, 1)].forM fun (p : Nat × Nat × Nat × Word) => do
    eqs (m.quantile p.1 p.2.1 p.2.2.1) (p8 p.2.2.2 3)
    ckR (m.quantileU64 p.1 p.2.1 p.2.2.1) (some p.2.2.2)
  [(0, 1), (1, 1), (2, 2)].forM fun (p : Nat × Word) => do
    eqs (m.getSorted p.1) (p8 p.2 3)
    ckR (m.getSortedU64 p.1) (some p.2)
  [(0, 3, 1), (1, 4, 1), (1, 3, 4)].forM fun (p : Nat × Nat × Word) => do
    eqs (m.rangeMin p.1 p.2.1) (p8 p.2.2 3)
    ckR (m.rangeMinU64 p.1 p.2.1) (some p.2.2)
  [(0, 3, 4), (3, 6, 7)].forM fun (p : Nat × Nat × Word) => do
    eqs (m.rangeMax p.1 p.2.1) (p8 p.2.2 3)
    ckR (m.rangeMaxU64 p.1 p.2.1) (some p.2.2)
  [(0, 3, 4), (1, 4, 4), (0, 6, 2)].forM fun (p : Nat × Nat × Word) => do
    eqs (m.rangeMedian p.1 p.2.1) (p8 p.2.2 3)
    ckR (m.rangeMedianU64 p.1 p.2.1) (some p.2.2)
  [(0, 3, 7, some 4), (0, 3, 4, some 4), (0, 6, 7, some 7)].forM (WaveletTests.search m 3 false)
  [(0, 3, 2, some 4), (0, 3, 5, none), (0, 6, 2, some 2)].forM (WaveletTests.search m 3 true)
  let it ← unwrapR m.iterU64
  WaveletTests.run m.numOps WaveletTests.itemNum it
    ([some 1, some 4, some 4, some 1, some 2, some 7, none].map fun x => (false, x))
  let it ← unwrapR m.iterSortedU64
  WaveletTests.run m.sortedNumOps WaveletTests.itemNum it
    ([some 1, some 1, some 2, some 4, some 4, some 7, none].map fun x => (false, x))
example : waveletOrder = .ok () := by decide +revert +kernel

end Vers.Conformance.DocTests
