import Verif.Conformance.Basic
import Verif.Model.Mmt
import Verif.Model.Convert

/-!
# The tests of src/trees/mmt.rs
-/

namespace Vers.Conformance.MmtTests

variable [Profile]

/-- `BitVec::from_bits`. -/
def bits (l : List (BitVec 8)) : R BV := l.foldlM (fun (v : BV) b => v.appendBitU8 b) BV.new

/-- `MinMaxTree::excess_tree` of a list of bits. -/
def tree (l : List (BitVec 8)) (bs : Nat) : R MMT := do
  let v ← bits l
  MMT.excessTree v bs

/-- The block a search returns. -/
def block (r : R (Option (Nat × Int))) : R Nat := do
  let p ← expect r
  pure p.1

/-- `test_simple_excess_tree` and `test_empty_excess_tree`, src/trees/mmt.rs:451-499. -/
def excessTree : R Unit := do
  let t ← tree [1, 1, 1, 0, 0, 1, 1, 1, 0, 1, 0, 1, 1, 1, 0, 0, 1, 0, 0, 1, 0, 0, 0, 0] 8
  ck t.nodes.length 6
  ([(3, 4, 1, 4), (4, 0, -1, 2), (5, -4, -4, 1), (0, 0, 0, 6), (1, 4, 1, 6), (2, -4, -4, 1)] :
    List (Nat × Int × Int × Int)).forM fun p => do
      ckR (t.totalExcess p.1) p.2.1
      ckR (t.minExcess p.1) p.2.2.1
      ckR (t.maxExcess p.1) p.2.2.2
  let t ← tree [] 8
  ck t.nodes.length 0
example : excessTree = .ok () := by decide +revert +kernel

/-- `test_excess_tree_navigation` and `test_empty_tree_navigation`, src/trees/mmt.rs:502-587. -/
def navigation : R Unit := do
  let t ← tree (List.replicate 48 0) 8
  ck t.nodes.length 13
  ck (t.leftChild 0) (some 1)
  ck (t.rightChild 0) (some 2)
  forRange 1 6 fun node => do
    ck (t.leftChild node) (some (node * 2 + 1))
    ck (t.rightChild node) (some (node * 2 + 2))
  ck (t.leftChild 6) none
  ck (t.rightChild 6) none
  ck (MMT.leftSibling 1) none
  ck (t.rightSibling 1) (some 2)
  ck (MMT.leftSibling 2) (some 1)
  ck (t.rightSibling 2) none
  ck (MMT.leftSibling 7) none
  ck (t.rightSibling 7) (some 8)
  ck (MMT.leftSibling 8) (some 7)
  ck (t.rightSibling 8) none
  ck (MMT.leftSibling 13) none
  ck (t.rightSibling 13) none
  ck (t.parent 7) (some 3)
  ck (t.parent 8) (some 3)
  ck (t.parent 9) (some 4)
  ck (t.parent 10) (some 4)
  ck (t.parent 1) (some 0)
  ck (t.parent 2) (some 0)
  ck (t.parent 13) none
  let t ← tree [] 8
  ck t.nodes.length 0
  ck (t.leftChild 0) none
  ck (t.rightChild 0) none
  ck (MMT.leftSibling 1) none
  ck (t.rightSibling 1) none
  ck (t.parent 1) none
example : navigation = .ok () := by decide +revert +kernel

/-- The tree of `test_simple_fwd_search` and `test_simple_bwd_search`. -/
def simple : R MMT := tree (List.replicate 12 1 ++ List.replicate 12 0) 8

/-- The tree of the tests with multiple blocks. -/
def multiple : R MMT := tree (List.replicate 13 1 ++ [0, 0, 0] ++ List.replicate 5 1 ++ [0, 0, 0, 0, 1, 1] ++
  List.replicate 13 0) 8

/-- The tree of the tests with relative offsets. -/
def offsets : R MMT := tree [1, 1, 1, 0, 1, 0, 1, 1, 1, 0, 1, 0, 0, 0, 0, 0] 4

/-- `test_simple_fwd_search`, `test_fwd_search_with_multiple_blocks` and `test_fwd_search_relative_offsets`,
src/trees/mmt.rs:590-671. -/
def fwd : R Unit := do
  let t ← simple
  ck t.nodes.length 6
  ckR (t.totalExcess 0) 0
  forRange 0 8 fun i => ckR (block (t.fwdSearch 0 (-(i : Int) - 1))) 2
  ckR (block (t.fwdSearch 1 (-1))) 2
  ckR (t.fwdSearch 0 (-9)) none
  let t ← multiple
  ck t.nodes.length 12
  ckR (t.totalExcess 0) 0
  ckR (block (t.fwdSearch 2 1)) 3
  ckR (block (t.fwdSearch 1 (-2))) 3
  let t ← offsets
  ckR (block (t.fwdSearch 0 (-1))) 3
example : fwd = .ok () := by decide +revert +kernel

/-- `test_simple_bwd_search`, `test_bwd_search_with_multiple_blocks` and `test_bwd_search_relative_offsets`,
src/trees/mmt.rs:674-753. -/
def bwd : R Unit := do
  let t ← simple
  ck t.nodes.length 6
  ckR (t.totalExcess 0) 0
  forRange 0 8 fun i => ckR (block (t.bwdSearch 2 (-(i : Int) - 1))) 0
  ckR (block (t.bwdSearch 1 (-1))) 0
  ckR (t.fwdSearch 2 (-9)) none
  let t ← multiple
  ck t.nodes.length 12
  ckR (t.totalExcess 0) 0
  ckR (block (t.bwdSearch 3 (-1))) 2
  ckR (block (t.bwdSearch 3 (-3))) 1
  let t ← offsets
  ckR (block (t.bwdSearch 3 (-4))) 0
example : bwd = .ok () := by decide +revert +kernel

/-- `test_incomplete_block`, `test_single_block` and `test_relative_excess`, src/trees/mmt.rs:756-783 and
800-825. -/
def blocks : R Unit := do
  let t ← tree (List.replicate 7 1 ++ List.replicate 7 0) 8
  ck t.nodes.length 3
  ckR (block (t.fwdSearch 0 (-1))) 1
  ckR (block (t.fwdSearch 0 (-2))) 1
  let t ← tree [1, 1, 1, 1, 0, 0, 0, 0] 8
  ck t.nodes.length 2
  let t ← tree (List.replicate 24 1 ++ List.replicate 24 0) 8
  ckR (t.fwdSearch 0 (-6)) (some (5, -6))
  ckR (t.bwdSearch 5 (-6)) (some (0, -6))
example : blocks = .ok () := by decide +revert +kernel

/-- `test_leaf_calculation`, src/trees/mmt.rs:786-797. The second tree has a tenth of the bits of the one in the test. -/
def firstLeaf : R Unit := do
  let t ← MMT.excessTree (BV.fromZeros 1000) 1200
  ckR t.firstLeaf 1
  let t ← MMT.excessTree (BV.fromZeros 100) 4
  ckR t.firstLeaf 31
example : firstLeaf = .ok () := by decide +revert +kernel

end Vers.Conformance.MmtTests
