import Verif.Conformance.Basic
import Verif.Model.Mask
import Verif.Model.GenIter
import Verif.Model.Convert

/-!
# The tests of src/bit_vec/tests.rs
-/

namespace Vers.Conformance.BitVecTests

variable [Profile]

/-- `assert_eq!(v.get_bits(pos, len), Some(x))` and `None`. -/
def bits (v : BV) (pos len : Nat) (x : Option Word) : R Unit := ckR (v.getBits pos len) x

/-- `assert_eq!(v.get(pos), x)`. -/
def bit (v : BV) (pos : Nat) (x : Option Word) : R Unit := ckR (v.get pos) x

/-- Calls of `flip_bit` in sequence. -/
def flips (v : BV) (l : List Nat) : R BV := l.foldlM (fun v i => v.flipBit i) v

/-- `simple_bit_vec_test`, src/bit_vec/tests.rs:4-25. -/
def simple : R Unit := do
  let bv ← BV.new.appendWord 2
  ck bv.len 64
  let bv ← bv.appendBit 1
  ck bv.len 65
  bit bv 0 (some 0)
  bit bv 1 (some 1)
  forRange 2 64 fun i => bit bv i (some 0)
  bit bv 64 (some 1)
  let bv ← bv.flipBit 1
  forRange 0 64 fun i => bit bv i (some 0)
  let bv := bv.dropLast 64
  ck bv.len 1
  bit bv 0 (some 0)
  bit bv 1 none
example : simple = .ok () := by decide +revert +kernel

/-- `test_empty_vec`, src/bit_vec/tests.rs:28-35. -/
def emptyVec : R Unit := do
  let bv := BV.new
  bit bv 0 none
  bit bv 1 none
  bits bv 0 0 none
  bits bv 0 10 none
example : emptyVec = .ok () := by decide +revert +kernel

/-- `test_alloc_ones`, src/bit_vec/tests.rs:38-44. -/
def allocOnes : R Unit := do
  let bv := BV.fromOnes 42
  ck bv.len 42
  ck bv.data.length 1
  forRange 0 42 fun i => bit bv i (some 1)
example : allocOnes = .ok () := by decide +revert +kernel

/-- `test_illegal_queries`, src/bit_vec/tests.rs:47-72. -/
def illegalQueries : R Unit := do
  let bv := BV.fromZeros 128
  ck bv.len 128
  bit bv 128 none
  bit bv 129 none
  panics (bv.flipBit 128)
  panics (bv.flipBit 129)
  panics (bv.appendBits 0 65)
example : illegalQueries = .ok () := by decide +revert +kernel

/-- `drop_last_test`, src/bit_vec/tests.rs:75-91. -/
def dropLast : R Unit := do
  let bv := (BV.fromOnes 128).dropLast 65
  ck bv.len 63
  ck bv.data.length 1
  forRange 0 63 fun i => bit bv i (some 1)
  let bv ← bv.appendBits 0 8
  ck bv.len 71
  ck bv.data.length 2
  forRange 0 63 fun i => bit bv i (some 1)
  forRange 63 71 fun i => bit bv i (some 0)
  let bv := bv.dropLast 128
  ck bv.len 0
  ck bv.data.length 0
example : dropLast = .ok () := by decide +revert +kernel

/-- `drop_and_append_word_test` and `drop_and_append_stride_test`, src/bit_vec/tests.rs:94-113. -/
def dropAndAppend : R Unit := do
  let bv ← ((BV.fromOnes 64).dropLast 32).appendWord 0
  ck bv.len 96
  forRange 0 32 fun i => bit bv i (some 1)
  forRange 32 96 fun i => bit bv i (some 0)
  let bv ← ((BV.fromOnes 64).dropLast 32).appendBits 0 64
  ck bv.len 96
  forRange 0 32 fun i => bit bv i (some 1)
  forRange 32 96 fun i => bit bv i (some 0)
example : dropAndAppend = .ok () := by decide +revert +kernel

/-- `drop_and_append_bit_test`, src/bit_vec/tests.rs:116-127. -/
def dropAndAppendBit : R Unit := do
  let bv := (BV.fromOnes 64).dropLast 32
  let bv ← bv.append false
  let bv ← bv.appendBit 0
  let bv ← bv.appendBitU8 0
  let bv ← bv.appendBitU32 0
  ck bv.len 36
  forRange 0 32 fun i => bit bv i (some 1)
  forRange 32 36 fun i => bit bv i (some 0)
example : dropAndAppendBit = .ok () := by decide +revert +kernel

/-- `append_and_drop_test` and `test_drop_all_append`, src/bit_vec/tests.rs:130-145. -/
def appendAndDrop : R Unit := do
  let bv ← (BV.fromZeros 1000).appendWord 420
  let bv := bv.dropLast 420
  ck bv.len (1000 + 64 - 420)
  forRange 0 (1000 + 64 - 420) fun i => bit bv i (some 0)
  let bv ← ((BV.fromZeros 100).dropLast 1000).appendWord (BitVec.allOnes 64)
  ck bv.len 64
  forRange 0 64 fun i => bit bv i (some 1)
example : appendAndDrop = .ok () := by decide +revert +kernel

/-- One call of an iterator, with the expected item. -/
def nx (v : BV) (x : Option Word) (it : GenIter) : R GenIter := do
  let p ← it.next v.vecOps
  ck p.2 x
  pure p.1

/-- One call of `next_back`, with the expected item. -/
def nb (v : BV) (x : Option Word) (it : GenIter) : R GenIter := do
  let p ← it.nextBack v.vecOps
  ck p.2 x
  pure p.1

/-- `advance_by(n).is_ok()`, with the iterator afterwards. -/
def advOk (x : R (Except Nat GenIter)) : R GenIter := do
  match ← x with
  | .ok it => pure it
  | .error _ => .error .assertion

/-- `advance_by(n).is_err()`. -/
def advErr (x : R (Except Nat GenIter)) : R Unit := do
  match ← x with
  | .ok _ => .error .assertion
  | .error _ => pure ()

/-- `test_iter`, src/bit_vec/tests.rs:148-198. -/
def iter : R Unit := do
  let bv ← flips (BV.fromZeros 10) [1, 3, 5]
  let new := GenIter.new bv.vecOps
  let _ ← [some 0, some 1, some 0, some 1, some 0, some 1, some 0, some 0, some 0, some 0, none, none].foldlM
    (fun it x => nx bv x it) new
  let _ ← [some 0, some 0, some 0, some 0, some 1, some 0, some 1, some 0, some 1, some 0, none, none].foldlM
    (fun it x => nb bv x it) new
  let it ← nx bv (some 0) new >>= nb bv (some 0)
  let it ← nx bv (some 1) it >>= nb bv (some 0)
  let it ← nx bv (some 0) it >>= nb bv (some 0)
  let it ← nx bv (some 1) it >>= nb bv (some 0)
  let it ← nx bv (some 0) it >>= nb bv (some 1)
  let it ← nb bv none it >>= nb bv none
  let _ ← nx bv none it >>= nx bv none
example : iter = .ok () := by decide +revert +kernel

/-- `test_custom_iter_behavior`, src/bit_vec/tests.rs:201-243. The owning iterator has the same model. `skip(n)`
of the standard library is `nth(n - 1)` on the first call of `next`, and its `count` is
`nth(n - 1)` followed by `count`. -/
def customIter : R Unit := do
  let bv ← flips (BV.fromZeros 10) [1, 3, 5]
  let new := GenIter.new bv.vecOps
  let _ ← advOk (new.advanceBy 10)
  let _ ← advOk (new.advanceBackBy 10)
  advErr (new.advanceBy 11)
  advErr (new.advanceBackBy 11)
  let it ← advOk (new.advanceBy 5)
  advErr (it.advanceBackBy 6)
  advErr (it.advanceBy 6)
  let _ ← advOk (it.advanceBackBy 5)
  let p ← new.nth bv.vecOps 1
  let _ ← nx bv (some 0) p.1
  ck new.len 10
  ck p.1.len 8
  ckR (new.last bv.vecOps) (some 0)
  ckR ((·.2) <$> new.nth bv.vecOps 3) (some 1)
  ckR ((·.2) <$> new.nth bv.vecOps 12) none
  let it ← advOk (new.advanceBy 2)
  let it ← advOk (it.advanceBackBy 4)
  let _ ← [some 0, some 1, some 0, some 1, none].foldlM (fun it x => nx bv x it) it
  let _ ← [some 1, some 0, some 1, some 0, none].foldlM (fun it x => nb bv x it) it
example : customIter = .ok () := by decide +revert +kernel

/-- `test_empty_iter`, src/bit_vec/tests.rs:246-281. -/
def emptyIter : R Unit := do
  let bv := BV.fromZeros 0
  let it := GenIter.new bv.vecOps
  ck it.len 0
  let it ← nx bv none it >>= nb bv none
  let p ← it.nth bv.vecOps 20
  ck p.2 none
  let p ← p.1.nthBack bv.vecOps 20
  ck p.2 none
  let it ← advOk (p.1.advanceBy 0)
  let it ← advOk (it.advanceBackBy 0)
  advErr (it.advanceBy 100)
  advErr (it.advanceBackBy 100)
  let it := GenIter.new (BV.fromZeros 1).vecOps
  ck it.len 1
  let it ← advOk (it.advanceBy 1)
  ck it.len 0
  let it ← advOk (it.advanceBy 0)
  let it ← advOk (it.advanceBackBy 0)
  advErr (it.advanceBy 1)
  advErr (it.advanceBackBy 1)
  let it := GenIter.new (BV.fromOnes 1).vecOps
  ck it.len 1
  let it ← advOk (it.advanceBackBy 1)
  ck it.len 0
  let it ← advOk (it.advanceBackBy 0)
  let it ← advOk (it.advanceBy 0)
  advErr (it.advanceBackBy 1)
  advErr (it.advanceBy 1)
example : emptyIter = .ok () := by decide +revert +kernel

/-- `test_get_bits`, src/bit_vec/tests.rs:284-305. -/
def getBits : R Unit := do
  let bv ← flips (BV.fromZeros 200) [1, 3, 5, 197, 199]
  ckR (bv.getBitsUnchecked 1 3) 0b101
  ckR (bv.getBitsUnchecked 1 4) 0b101
  ckR (bv.getBitsUnchecked 2 2) 0b10
  ckR (bv.getBitsUnchecked 197 3) 0b101
  ckR (bv.getBitsUnchecked 198 2) 0b10
  bits bv 0 65 none
  bits bv 300 2 none
  bits bv 190 12 none
  bits bv 0 64 (some 0b101010)
  bits (BV.fromOnes 200) 4 64 (some (BitVec.allOnes 64))
example : getBits = .ok () := by decide +revert +kernel

/-- `test_set_bit`, src/bit_vec/tests.rs:308-317. -/
def setBit : R Unit := do
  let bv ← (List.range 41).foldlM (fun v i => expect (v.set (25 * i) 1)) (BV.fromZeros 1025)
  forRange 0 1025 fun i => bit bv i (some (if i % 25 = 0 then 1 else 0))
example : setBit = .ok () := by decide +revert +kernel

/-- `test_count_bits` and `test_count_empty_vec`, src/bit_vec/tests.rs:320-336. -/
def countBits : R Unit := do
  let bv ← flips (BV.fromOnes 2000) [24, 156, 1999]
  ckR bv.countOnes 1997
  ckR bv.countZeros 3
  ckR BV.new.countOnes 0
  ckR BV.new.countZeros 0
example : countBits = .ok () := by decide +revert +kernel

/-- `test_masked`, src/bit_vec/tests.rs:339-376. -/
def masked : R Unit := do
  let original ← expect ((BV.fromZeros 100).set 30 1)
  let original ← expect (original.set 31 1)
  let original ← expect (original.set 32 1)
  let maskOr ← expect ((BV.fromZeros 100).set 29 1)
  let m ← unwrapR (Masked.new original maskOr (· ||| ·))
  ckR (m.getBits 0 28) (some 0)
  ckR (m.getBits 29 4) (some 15)
  ckR (m.getBits 33 (64 - 33)) (some 0)
  ckR (m.getBits 64 36) (some 0)
  let maskAnd ← expect ((BV.fromZeros 100).set 31 1)
  let m ← unwrapR (Masked.new original maskAnd (· &&& ·))
  ckR (m.getBits 0 31) (some 0)
  ckR (m.getBits 31 1) (some 1)
  ckR (m.getBits 32 (64 - 32)) (some 0)
  ckR (m.getBits 64 36) (some 0)
  let maskXor ← expect ((BV.fromZeros 100).set 30 1)
  let maskXor ← expect (maskXor.set 70 1)
  let m ← unwrapR (Masked.new original maskXor (· ^^^ ·))
  ckR (m.getBits 0 31) (some 0)
  ckR (m.getBits 31 2) (some 3)
  ckR (m.getBits 33 (64 - 33)) (some 0)
  ckR (m.getBits 64 36) (some (1 <<< 6))
example : masked = .ok () := by decide +revert +kernel

/-- `test_masked_empty_vec`, `test_masked_get_bits`, `test_masked_count_bits` and `test_masked_to_bit_vec`,
src/bit_vec/tests.rs:379-451. -/
def masked2 : R Unit := do
  let m ← unwrapR (Masked.new BV.new BV.new (· ||| ·))
  ckR m.countOnes 0
  ckR (m.get 0) none
  ckR (m.get 1) none
  ckR (m.getBits 0 0) none
  ckR (m.getBits 0 10) none
  let bv ← flips (BV.fromZeros 200) [1, 3, 5, 197, 199]
  let mask ← flips (BV.fromZeros 200) [1, 2, 3]
  let m ← unwrapR (Masked.new bv mask (· &&& ·))
  ckR (m.getBitsUnchecked 1 3) 0b101
  ckR (m.getBitsUnchecked 1 4) 0b101
  ckR (m.getBitsUnchecked 2 2) 0b10
  ckR (m.getBitsUnchecked 197 3) 0
  ckR (m.getBitsUnchecked 198 2) 0
  ckR (m.getBits 0 65) none
  ckR (m.getBits 300 2) none
  ckR (m.getBits 190 12) none
  ckR (m.getBits 0 64) (some 0b1010)
  let bv ← flips (BV.fromOnes 2000) [24, 156, 1999]
  let mask ← flips (BV.fromZeros 2000) [24, 1999, 0]
  let m ← unwrapR (Masked.new bv mask (· &&& ·))
  ckR m.countOnes 1
  ckR m.countZeros 1999
  let bv ← flips (BV.fromZeros 5) [0]
  let bv2 ← flips (BV.fromZeros 5) [1]
  let m ← unwrapR (Masked.new bv bv2 (· ||| ·))
  let combined := m.toBitVec
  bits combined 0 2 (some 3)
  bits combined 2 3 (some 0)
  ck combined.len 5
example : masked2 = .ok () := by decide +revert +kernel

/-- `test_apply_masks`, src/bit_vec/tests.rs:454-486. -/
def applyMasks : R Unit := do
  let bv ← flips (BV.fromZeros 100) [1, 99]
  let mask ← flips (BV.fromZeros 100) [1, 2, 99]
  let a ← expect (bv.applyMask (· &&& ·) mask)
  bit a 1 (some 1)
  bit a 2 (some 0)
  bit a 99 (some 1)
  let o ← expect (bv.applyMask (· ||| ·) mask)
  bit o 1 (some 1)
  bit o 2 (some 1)
  bit o 99 (some 1)
  let x ← expect (bv.applyMask (· ^^^ ·) mask)
  bit x 1 (some 0)
  bit x 2 (some 1)
  bit x 99 (some 0)
example : applyMasks = .ok () := by decide +revert +kernel

/-- `test_from_bits`, `test_from_words`, `test_from_vec` and `test_from_conversion`, src/bit_vec/tests.rs:477-510
and 648-661. -/
def constructors : R Unit := do
  let bv ← BV.fromBits [1, 0, 1]
  ck bv.len 3
  bits bv 0 3 (some 0b101)
  let bv := BV.fromLimbs [1, 0, BitVec.allOnes 64]
  ck bv.len 192
  bits bv 0 64 (some 1)
  bits bv 64 64 (some 0)
  bits bv 128 64 (some (BitVec.allOnes 64))
  let bv := BV.fromLimbs []
  ck bv.len 0
  bits bv 0 0 none
  let bv := BV.ofU64s [0, BitVec.allOnes 64]
  ck bv.len 128
  bits bv 0 64 (some 0)
  bits bv 64 64 (some (BitVec.allOnes 64))
example : constructors = .ok () := by decide +revert +kernel

/-- `test_pack_u64`, src/bit_vec/tests.rs:513-563. -/
def packU64 : R Unit := do
  let bv ← BV.packSequence 64 [10, 12, 0, 1000, 1, 0, 1, 0] 10
  ck bv.len 80
  ([10, 12, 0, 1000, 1, 0, 1, 0].zipIdx).forM fun p => bits bv (10 * p.2) 10 (some p.1)
  let bv ← BV.packSequence 64 [0, 1000, 1, BitVec.allOnes 64] 8
  ck bv.len 32
  bits bv 0 8 (some 0)
  bits bv 8 8 (some 0b11101000)
  bits bv 16 8 (some 1)
  bits bv 24 8 (some 0b11111111)
  let bv ← BV.packSequence 64 [0, 1000, 1, BitVec.allOnes 64] 0
  ck bv.len 0
  let bv ← BV.packSequence 64 [0, 1000, 1, BitVec.allOnes 64] 64
  ck bv.len 256
  bits bv 0 64 (some 0)
  bits bv 64 64 (some 1000)
  bits bv 128 64 (some 1)
  bits bv 192 64 (some (BitVec.allOnes 64))
  let bv ← BV.packSequence 64 [0, 1, 2, BitVec.allOnes 64] 128
  ck bv.len 512
  bits bv 0 64 (some 0)
  bits bv 64 64 (some 0)
  bits bv 128 64 (some 1)
  bits bv 192 64 (some 0)
  bits bv 256 64 (some 2)
  bits bv 320 64 (some 0)
  bits bv 384 64 (some (BitVec.allOnes 64))
  bits bv 448 64 (some 0)
  let bv ← BV.packSequence 64 [0, 1, 2, BitVec.allOnes 64] 65
  ck bv.len 260
  bits bv 0 64 (some 0)
  bits bv 64 1 (some 0)
  bits bv 65 64 (some 1)
  bits bv 129 1 (some 0)
  bits bv 130 64 (some 2)
  bits bv 194 1 (some 0)
  bits bv 195 64 (some (BitVec.allOnes 64))
  bits bv 259 1 (some 0)
example : packU64 = .ok () := by decide +revert +kernel

/-- `test_remaining_packing_constructors`, src/bit_vec/tests.rs:566-645 (the constructors from a slice and from an
iterator have the same model). -/
def packOther : R Unit :=
  [32, 16, 8].forM fun w => do
    let seq : List Word := [10, 12, 0, if w = 8 then 100 else 1000, 1, 0, 1, 0]
    let bv ← BV.packSequence w seq 10
    ck bv.len 80
    seq.zipIdx.forM fun p => bits bv (10 * p.2) 10 (some p.1)
example : packOther = .ok () := by decide +revert +kernel

/-- `test_unpack`, src/bit_vec/tests.rs:664-675. -/
def unpack : R Unit := do
  let seq : List Word := [10, 12, 0, 1000, 1, 0, 1, 0]
  let bv ← BV.packSequence 64 seq 10
  seq.zipIdx.forM fun p => do
    ckR (bv.unpackElement p.2 10) (some p.1)
    ckR (bv.unpackElementUnchecked p.2 10) p.1
  ckR (bv.unpackElement 8 10) none
  ckR (bv.unpackElement 1000 10) none
example : unpack = .ok () := by decide +revert +kernel

/-- `test_extend`, src/bit_vec/tests.rs:678-717. -/
def extend : R Unit := do
  let bv ← (BV.fromZeros 10).extendBitvec (BV.fromOnes 10)
  ck bv.len 20
  bits bv 0 20 (some 0b11111111110000000000)
  let bv ← (BV.fromZeros 10).extendBitvec BV.new
  ck bv.len 10
  bits bv 0 10 (some 0)
  let bv ← BV.new.extendBitvec (BV.fromOnes 10)
  ck bv.len 10
  bits bv 0 10 (some 0b1111111111)
  let bv ← (BV.fromZeros 1000).extendBitvec (BV.fromOnes 1000)
  ck bv.len 2000
  bits bv 64 64 (some 0)
  bits bv 1064 64 (some (BitVec.allOnes 64))
  let bv ← (BV.fromZeros 64).extendBitvec (BV.fromOnes 64)
  ck bv.len 128
  bits bv 0 64 (some 0)
  bits bv 64 64 (some (BitVec.allOnes 64))
example : extend = .ok () := by decide +revert +kernel

/-- `test_split_at`, src/bit_vec/tests.rs:720-771. -/
def splitAt : R Unit := do
  let bv ← flips (BV.fromZeros 64) [1, 3]
  let (left, right) ← bv.splitAtUnchecked 2
  ck left.len 2
  ck right.len 62
  bit left 0 (some 0)
  bit left 1 (some 1)
  bit right 0 (some 0)
  bit right 1 (some 1)
  bits right 2 60 (some 0)
  let (left, right) ← (BV.fromZeros 1000).splitAtUnchecked 0
  ck left.len 0
  ck right.len 1000
  bit right 999 (some 0)
  let (left, right) ← (BV.fromZeros 1000).splitAtUnchecked 1000
  ck left.len 1000
  ck right.len 0
  bit left 999 (some 0)
  let (left, right) ← (BV.fromOnes 128).splitAtUnchecked 64
  ck left.len 64
  ck right.len 64
  bits left 0 64 (some (BitVec.allOnes 64))
  bits right 0 64 (some (BitVec.allOnes 64))
  let (left, right) ← (BV.fromOnes 20).splitAtUnchecked 10
  ck left.len 10
  ck right.len 10
  let (left, right) ← BV.new.splitAtUnchecked 0
  ck left.len 0
  ck right.len 0
example : splitAt = .ok () := by decide +revert +kernel

/-- `test_split_at_result`, src/bit_vec/tests.rs:774-809. -/
def splitAtResult : R Unit := do
  let bv ← flips (BV.fromZeros 2) [1]
  let (left, right) ← expect (bv.splitAt 1)
  ck left.len 1
  ck right.len 1
  bit left 0 (some 0)
  bit right 0 (some 1)
  let (left, right) ← expect ((BV.fromZeros 2).splitAt 0)
  ck left.len 0
  ck right.len 2
  let (left, right) ← expect ((BV.fromZeros 2).splitAt 2)
  ck left.len 2
  ck right.len 0
  let r ← (BV.fromZeros 2).splitAt 3
  ck r.isNone true
  let (left, right) ← expect (BV.new.splitAt 0)
  ck left.isEmpty true
  ck right.isEmpty true
example : splitAtResult = .ok () := by decide +revert +kernel

/-- `test_splitting_limbs`, src/bit_vec/tests.rs:812-859. -/
def splittingLimbs : R Unit :=
  [(68, 60), (128, 60), (140, 60), (144, 64), (192, 64), (200, 64)].forM fun p => do
    let bv ← flips (BV.fromZeros p.1) [p.2]
    let (left, right) ← expect (bv.splitAt p.2)
    ck left.len p.2
    ck right.len (p.1 - p.2)
    bit left 0 (some 0)
    bit right 0 (some 1)
example : splittingLimbs = .ok () := by decide +revert +kernel

/-- `test_equals_junk`, `test_bool_constructors` and `test_limbs_constructor`, src/bit_vec/tests.rs:862-899. -/
def rest : R Unit := do
  let bv2 ← flips (BV.fromZeros 100) [99]
  ckR (((BV.fromZeros 100).dropLast 4).eq (bv2.dropLast 4)) true
  let bv ← BV.fromBools [true, true, false, true, false, false, false, false]
  ck bv.len 8
  bits bv 0 8 (some 0b00001011)
  ck (BV.fromLimbs [10003584882, 248939, 10]).iterLimbs [10003584882, 248939, 10]
  let bv ← BV.packSequence 32 [23] 5
  let w ← unwrapR bv.iterLimbs.head?
  ck (w &&& ((1 <<< 23) - 1)) 23
example : rest = .ok () := by decide +revert +kernel

end Vers.Conformance.BitVecTests
