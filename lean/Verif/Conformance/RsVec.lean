import Verif.Conformance.Bp
import Verif.Model.RsIter
import Verif.Model.BitSet
import Verif.Model.GenIter
import Verif.Model.Convert

/-!
# The tests of src/bit_vec/fast_rs_vec/tests.rs

`BLOCK_SIZE` is 512 and `SUPER_BLOCK_SIZE` is 8192. The tests `test_random_data_rank`, `random_data_select0`,
`random_data_select1`, `test_random_data_iter`, `test_random_data_iter_both_ends`, `test_block_layout` and
`test_iter1_regression_i6` use random data and are not replayed.
-/

namespace Vers.Conformance.RsVecTests

variable [Profile]

/-- Calls of `flip_bit` in sequence. -/
def flips (v : BV) (l : List Nat) : R BV := l.foldlM (fun v i => v.flipBit i) v

/-- Calls of `append_bit_u8` in sequence. -/
def bitsU8 (v : BV) (l : List (BitVec 8)) : R BV := l.foldlM (fun v b => v.appendBitU8 b) v

/-- `select0` and `select1` in the variants with and without vector instructions. -/
def sel (rs : RsVec) (zero : Bool) (k x : Nat) : R Unit := do
  ckR (rs.select zero k) x
  ckR (rs.selectSimd zero k) x

/-- `test_append_bit`, src/bit_vec/fast_rs_vec/tests.rs:8-16. -/
def appendBit : R Unit := do
  let v ← bitsU8 BV.new [0, 1, 1]
  let rs ← RsVec.fromBitVec v
  ck (rs.data.take 1) [0b110]
example : appendBit = .ok () := by decide +revert +kernel

/-- `test_append_bit_long`, src/bit_vec/fast_rs_vec/tests.rs:63-76. The same vector is built from words. -/
def appendBitLong : R Unit := do
  let v := BV.fromLimbs (List.replicate 256 0xaaaaaaaaaaaaaaaa)
  let v ← bitsU8 v [0, 1]
  let rs ← RsVec.fromBitVec v
  ck rs.len (8193 * 2)
  ckR (rs.rank true (2 * 8193 - 1)) 8193
  ckR (rs.rank false (2 * 8193 - 1)) (8193 - 1)
example : appendBitLong = .ok () := by decide +revert +kernel

/-- `test_rank` and `test_multi_words_rank`, src/bit_vec/fast_rs_vec/tests.rs:79-112. -/
def rank : R Unit := do
  let v ← bitsU8 BV.new [0, 1, 1, 0, 1, 1]
  let rs ← RsVec.fromBitVec v
  ckR (rs.rank true 0) 0
  ckR (rs.rank false 0) 0
  ckR (rs.rank false 2) 1
  ckR (rs.rank false 3) 2
  ckR (rs.rank false 4) 2
  ckR (rs.rank true 3) 1
  let v ← BV.new.appendWord 0
  let v ← bitsU8 v [0, 1, 1]
  let rs ← RsVec.fromBitVec v
  ckR (rs.rank true 63) 63
  ckR (rs.rank true 64) 64
  ckR (rs.rank true 65) 65
  ckR (rs.rank true 66) 65
example : rank = .ok () := by decide +revert +kernel

/-- `test_only_zeros_rank`, `test_only_ones_rank`, `test_only_zeros_select` and `test_only_ones_select`,
src/bit_vec/fast_rs_vec/tests.rs:115-147 and 173-207, at every 797th position and the last one. -/
def onlyZeros : R Unit := do
  let v ← bitsU8 (BV.fromLimbs (List.replicate 256 0)) [0]
  let rs ← RsVec.fromBitVec v
  ck rs.len (2 * 8192 + 1)
  (16384 :: (List.range 21).map (797 * ·)).forM fun i => do
    ckR (rs.rank true i) i
    ckR (rs.rank false i) 0
    sel rs true i i
example : onlyZeros = .ok () := by decide +revert +kernel

/-- The same for ones. -/
def onlyOnes : R Unit := do
  let v ← bitsU8 (BV.fromLimbs (List.replicate 256 (BitVec.allOnes 64))) [1]
  let rs ← RsVec.fromBitVec v
  ck rs.len (2 * 8192 + 1)
  (16384 :: (List.range 21).map (797 * ·)).forM fun i => do
    ckR (rs.rank true i) 0
    ckR (rs.rank false i) i
    sel rs false i i
example : onlyOnes = .ok () := by decide +revert +kernel

/-- `test_simple_select` and `test_multi_words_select`, src/bit_vec/fast_rs_vec/tests.rs:150-171. -/
def select : R Unit := do
  let v ← BV.new.appendWord 0b10110
  let rs ← RsVec.fromBitVec v
  sel rs true 0 0
  sel rs false 1 2
  sel rs true 1 3
  let v ← BV.new.appendWord 0
  let v ← v.appendWord 0
  let v ← v.appendWord 0b10110
  let rs ← RsVec.fromBitVec v
  sel rs false 0 129
  sel rs false 1 130
  sel rs true 32 32
  sel rs true 128 128
  sel rs true 129 131
example : select = .ok () := by decide +revert +kernel

/-- `test_total_ranks`, src/bit_vec/fast_rs_vec/tests.rs:312-336. -/
def totalRanks : R Unit := do
  let rs ← RsVec.fromBitVec (BV.fromLimbs (List.replicate 4 0b10110))
  ck rs.rank0 (4 * 61)
  ck rs.rank1 (4 * 3)
  let v ← bitsU8 (BV.fromLimbs (List.replicate 256 0b10110)) [0, 1, 0]
  let rs ← RsVec.fromBitVec v
  ck rs.rank0 (256 * 61 + 2)
  ck rs.rank1 (256 * 3 + 1)
example : totalRanks = .ok () := by decide +revert +kernel

/-- `test_large_query`, `test_large_selects` and `test_empty_vec`, src/bit_vec/fast_rs_vec/tests.rs:339-377. -/
def large : R Unit := do
  let v ← bitsU8 BV.new [1, 0]
  let rs ← RsVec.fromBitVec v
  ckR (rs.rank true 10) 1
  ckR (rs.rank false 10) 1
  let v ← BV.new.appendBit 0
  let v ← v.appendWord (BitVec.allOnes 64)
  let rs ← RsVec.fromBitVec v
  ckR (rs.rank false 65) 64
  ckR (rs.rank false 66) 64
  sel rs true 1 65
  sel rs false 63 64
  sel rs false 64 65
  sel rs false 65 65
  let rs ← RsVec.fromBitVec BV.new
  ck rs.len 0
  ckR (rs.rank true 0) 0
  ckR (rs.rank false 0) 0
  sel rs true 0 0
  sel rs false 0 0
example : large = .ok () := by decide +revert +kernel

/-- `test_block_boundaries`, src/bit_vec/fast_rs_vec/tests.rs:380-433. -/
def blockBoundaries : R Unit :=
  [512 - 1, 512, 512 + 1, 8192 - 1, 8192, 8192 + 1, 8192 + 10, 8192 + 11].forM fun n => do
    let v ← flips (BV.fromZeros n) [10, 11, n - 11, n - 10]
    let rs ← RsVec.fromBitVec v
    ckR (rs.rank true 10) 10
    ckR (rs.rank true 11) 10
    ckR (rs.rank false 10) 0
    ckR (rs.rank false 11) 1
    ckR (rs.rank false (n - 2)) 4
    ckR (rs.rank false (n - 1)) 4
    ckR (rs.rank false n) 4
    ckR (rs.rank true (n - 2)) (n - 6)
    ckR (rs.rank true (n - 1)) (n - 5)
    ckR (rs.rank true n) (n - 4)
    sel rs false 0 10
    sel rs false 1 11
    sel rs false 2 (n - 11)
    sel rs false 3 (n - 10)
example : blockBoundaries = .ok () := by decide +revert +kernel

/-- `test_iter`, src/bit_vec/fast_rs_vec/tests.rs:436-488, and `test_custom_iter_behavior`, 491-537 (the part that
`BitVec` does not have). The iterator has the same model as that of `BitVec`, see `BitVecTests`. -/
def iter : R Unit := do
  let v ← flips (BV.fromZeros 10) [1, 3, 5]
  let rs ← RsVec.fromBitVec v
  let new := GenIter.new rs.vecOps
  let it ← [0, 1, 0, 1, 0, 1, 0, 0, 0, 0].foldlM (fun it x => do
    let p ← it.next rs.vecOps
    ck p.2 (some x)
    pure p.1) new
  ckR ((·.2) <$> it.next rs.vecOps) none
  let it ← [0, 0, 0, 0, 1, 0, 1, 0, 1, 0].foldlM (fun it x => do
    let p ← it.nextBack rs.vecOps
    ck p.2 (some x)
    pure p.1) new
  ckR ((·.2) <$> it.nextBack rs.vecOps) none
  let p ← new.nth rs.vecOps 2
  ck p.2 (some 0)
  let p ← p.1.nthBack rs.vecOps 4
  ck p.2 (some 1)
  let p ← p.1.next rs.vecOps
  ck p.2 (some 1)
  ck p.1.len 1
  let p ← p.1.next rs.vecOps
  ck p.2 (some 0)
  ck p.1.len 0
example : iter = .ok () := by decide +revert +kernel

/-- `test_get_bits`, src/bit_vec/fast_rs_vec/tests.rs:579-601. -/
def getBits : R Unit := do
  let v ← flips (BV.fromZeros (2 * 8192)) [1, 3, 5, 8192 - 1, 8192 + 1]
  let rs ← RsVec.fromBitVec v
  ckR (rs.getBitsUnchecked 1 3) 0b101
  ckR (rs.getBitsUnchecked 1 4) 0b101
  ckR (rs.getBitsUnchecked 2 2) 0b10
  ckR (rs.getBitsUnchecked (8192 - 1) 3) 0b101
  ckR (rs.getBitsUnchecked 8192 3) 0b10
  ckR (rs.getBits 0 65) none
  ckR (rs.getBits (3 * 8192) 2) none
  ckR (rs.getBits (2 * 8192 - 10) 12) none
  ckR (rs.getBits 0 64) (some 0b101010)
  let rs ← RsVec.fromBitVec (BV.fromOnes 100)
  ckR (rs.getBits 3 64) (some (BitVec.allOnes 64))
example : getBits = .ok () := by decide +revert +kernel

/-- The positions that are flipped in the tests of the select iterators. -/
def marks : List Nat := [1, 3, 5, 512, 512 + 1, 8192 - 1, 8192, 8192 + 1]

/-- The vector of the tests of the select iterators: `marks` are zeros (or ones), all other bits are the opposite. -/
def marked (zero : Bool) : R RsVec := do
  let v ← flips (if zero then BV.fromOnes (2 * 8192) else BV.fromZeros (2 * 8192)) marks
  RsVec.fromBitVec v

/-- `next()` with the expected item. -/
def nx (rs : RsVec) (zero simd : Bool) (it : SelIter) (x : Option Nat) : R SelIter := do
  let p ← it.next rs zero simd
  ck p.2 x
  pure p.1

/-- `next_back()` with the expected item. -/
def nb (rs : RsVec) (zero simd : Bool) (it : SelIter) (x : Option Nat) : R SelIter := do
  let p ← it.nextBack rs zero simd
  ck p.2 x
  pure p.1

/-- `test_select1_iterator`, `test_select0_iterator`, `test_select1_bs_iterator`, `test_select0_bs_iterator` and
`test_select_iter_next_back`, src/bit_vec/fast_rs_vec/tests.rs:604-712 and 751-796. -/
def selectIter (zero : Bool) : R Unit := do
  let rs ← marked zero
  let it ← SelIter.new rs zero
  [true, false].forM fun simd => do
    let _ ← (marks.map some ++ [none]).foldlM (nx rs zero simd) it
    let _ ← marks.reverse.foldlM (fun it x => nb rs zero simd it (some x)) it
  let it ← BsIter.new rs zero
  let _ ← (marks.map some ++ [none]).foldlM (fun (it : BsIter) x => do
    let p ← it.next rs zero
    ck p.2 x
    pure p.1) it
example : selectIter true = .ok () := by decide +revert +kernel
example : selectIter false = .ok () := by decide +revert +kernel

/-- `test_empty_vec_select_iter` and `test_full_vec_empty_select_iter`,
src/bit_vec/fast_rs_vec/tests.rs:715-748. -/
def emptySelectIter : R Unit := do
  let rs ← RsVec.fromBitVec BV.new
  [true, false].forM fun zero => do
    let it ← SelIter.new rs zero
    ck it.len 0
    let it ← nx rs zero false it none
    let _ ← nb rs zero false it none
  [true, false].forM fun zero => do
    let rs ← RsVec.fromBitVec (if zero then BV.fromOnes (2 * 8192) else BV.fromZeros (2 * 8192))
    let it ← SelIter.new rs zero
    ck it.len 0
    let it ← nx rs zero false it none
    let it ← nb rs zero false it none
    ck it.len 0
example : emptySelectIter = .ok () := by decide +revert +kernel

/-- `test_select_iter_mixed` and `test_select_iter_size_hints`, src/bit_vec/fast_rs_vec/tests.rs:799-864 and
961-1052. -/
def selectIterMixed (zero : Bool) : R Unit := do
  let rs ← marked zero
  let it ← SelIter.new rs zero
  ck it.len 8
  let it ← nx rs zero false it (some 1)
  ck it.len 7
  let it ← nb rs zero false it (some (8192 + 1))
  ck it.len 6
  let it ← nx rs zero false it (some 3)
  ck it.len 5
  let it ← nb rs zero false it (some 8192)
  ck it.len 4
  let it ← nx rs zero false it (some 5)
  ck it.len 3
  let it ← nb rs zero false it (some (8192 - 1))
  ck it.len 2
  let it ← nx rs zero false it (some 512)
  ck it.len 1
  let it ← nb rs zero false it (some (512 + 1))
  ck it.len 0
  let it ← nx rs zero false it none
  ck it.len 0
  let it ← nb rs zero false it none
  ck it.len 0
example : selectIterMixed true = .ok () := by decide +revert +kernel
example : selectIterMixed false = .ok () := by decide +revert +kernel

/-- `test_select_iter_back_without_idx0`, src/bit_vec/fast_rs_vec/tests.rs:867-911. -/
def selectIterBack (zero : Bool) : R Unit := do
  let rs ← marked zero
  let it ← SelIter.new rs zero
  let it ← (marks.drop 1).reverse.foldlM (fun it x => nb rs zero false it (some x)) it
  let it ← nx rs zero false it (some 1)
  let it ← nb rs zero false it none
  let _ ← nx rs zero false it none
example : selectIterBack true = .ok () := by decide +revert +kernel
example : selectIterBack false = .ok () := by decide +revert +kernel

/-- `test_select_iter_custom_impls`, src/bit_vec/fast_rs_vec/tests.rs:914-958. The number in the error of
`advance_by` is not part of the model. -/
def selectIterCustom : R Unit := do
  let rs ← marked true
  let new ← SelIter.new rs true
  ckR (new.last rs true) (some (8192 + 1))
  ckR ((·.2) <$> new.nth rs true 2) (some 5)
  ckR ((·.2) <$> new.nth rs true 10) none
  ck (new.advanceBy 2).2 true
  ck (new.advanceBy 10).2 false
  ck new.len 8
  let p ← new.nextBack rs true
  let p ← p.1.nthBack rs true 2
  ck p.2 (some (512 + 1))
  let p ← p.1.nextBack rs true
  ckR (p.1.last rs true) (some 5)
  let p ← new.next rs true
  ckR ((·.2) <$> p.1.nthBack rs true 7) none
  ck p.1.len 7
  ckR ((·.2) <$> p.1.advanceBackBy 8) false
  ckR ((·.2) <$> p.1.advanceBackBy 7) true
  ckR ((·.2) <$> p.1.advanceBackBy 6) true
example : selectIterCustom = .ok () := by decide +revert +kernel

/-- `test_sparse_equals` and `test_full_equals`, src/bit_vec/fast_rs_vec/tests.rs:1055-1141; the loops over all
pairs of bytes are replayed for six bytes. -/
def equals : R Unit := do
  [0, 1, 2, 127, 128, 254].forM fun a =>
    [0, 1, 2, 127, 128, 254].forM fun b => do
      let v1 ← BV.new.appendBits a 9
      let v2 ← BV.new.appendBits b 9
      let rs1 ← RsVec.fromBitVec v1
      let rs2 ← RsVec.fromBitVec v2
      ckR (RsVec.sparseEquals true rs1 rs2) (a == b)
      ckR (RsVec.sparseEquals false rs1 rs2) (a == b)
      ckR (rs1.fullEquals rs2) (a == b)
  let v ← flips (BV.fromZeros (2 * 8192)) [1]
  let rs1 ← RsVec.fromBitVec v
  ckR (RsVec.sparseEquals false rs1 rs1) true
  ckR (rs1.fullEquals rs1) true
  let v ← flips v [3]
  let rs2 ← RsVec.fromBitVec v
  ckR (RsVec.sparseEquals false rs1 rs2) false
  ckR (RsVec.sparseEquals true rs1 rs2) false
  ckR (rs1.fullEquals rs2) false
  let v ← flips v [3, 2 * 8192 - 1]
  let rs1 ← RsVec.fromBitVec v
  ckR (RsVec.sparseEquals false rs1 rs2) false
  ckR (RsVec.sparseEquals true rs1 rs2) false
  ckR (rs1.fullEquals rs2) false
example : equals = .ok () := by decide +revert +kernel

/-- `test_iter1_regression_i8`, `test_append_regression_i29` and `test_simd_fallback`,
src/bit_vec/fast_rs_vec/tests.rs:1311-1388. -/
def regressions : R Unit := do
  let on := [1, 14, 21, 24, 36, 48, 57, 59, 65, 69, 81, 87, 97, 100, 101, 104, 111, 117]
  let v ← on.foldlM (fun v i => expect (v.set i 1)) (BV.fromZeros 8193)
  let rs ← RsVec.fromBitVec v
  let it ← SelIter.new rs false
  let _ ← (on.map some ++ [none]).foldlM (nx rs false false) it
  let v ← BV.new.appendBits (BitVec.allOnes 64) 1
  let rs ← RsVec.fromBitVec v
  ckR (rs.get 0) (some 1)
  ck rs.rank0 0
  ck rs.rank1 1
  let v ← BV.new.appendBits (BitVec.allOnes 64) 63
  let v ← v.appendBit 0
  let rs ← RsVec.fromBitVec v
  ckR (rs.get 63) (some 0)
  ck rs.rank0 1
  ck rs.rank1 63
  let v ← BV.new.appendBits 0 63
  let v ← v.appendBit 1
  let rs ← RsVec.fromBitVec v
  ckR (rs.get 63) (some 1)
  ck rs.rank0 63
  ck rs.rank1 1
  let rs ← RsVec.fromBitVec (BV.fromZeros (8192 + 3 * 512 + 3))
  sel rs true (8192 + 3 * 512 + 1) (8192 + 3 * 512 + 1)
example : regressions = .ok () := by decide +revert +kernel

end Vers.Conformance.RsVecTests
