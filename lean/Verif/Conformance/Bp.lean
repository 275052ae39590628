import Verif.Conformance.Basic
import Verif.Model.Bp
import Verif.Model.Convert

/-!
# The tests of src/trees/bp/tests.rs

Every test is replayed with both lookup tables (the feature `bp_u16_lookup`), in the debug build (the profile of the
tests). `test_fwd_fuzzy`, `test_bwd_fuzzy` and
`fuzz_tree_navigation` use random data and are not replayed.
-/

namespace Vers.Conformance.BpTests

variable [Profile]

open Lookup (Variant)

/-- `BitVec::from_bits`. -/
def bits (l : List (BitVec 8)) : R BV := l.foldlM (fun (v : BV) b => v.appendBitU8 b) BV.new

/-- `BpTree::<bs>::from_bit_vector(BitVec::from_bits(l))`. -/
def tree (bs : Nat) (l : List (BitVec 8)) : R BpTree := do
  let v ← bits l
  BpTree.fromBitVector bs v

/-- The expression of the search tests. -/
def expr : List (BitVec 8) := [1, 1, 1, 1, 0, 0, 1, 1, 0, 1, 0, 0, 1, 0, 1, 0, 1, 0, 1, 0, 1, 0, 0, 0]

/-- The expression of `test_close`, `test_open` and `test_enclose`. -/
def deep : List (BitVec 8) := List.replicate 24 1 ++ List.replicate 24 0

/-- A list of forward searches. -/
def fwds (t : BpTree) (bs : Nat) (k : Variant) (l : List (Nat × Int × Option Nat)) : R Unit :=
  l.forM fun p => ckR (t.fwdSearch bs k p.1 p.2.1) p.2.2

/-- A list of backward searches. -/
def bwds (t : BpTree) (bs : Nat) (k : Variant) (l : List (Nat × Int × Option Nat)) : R Unit :=
  l.forM fun p => ckR (t.bwdSearch bs k p.1 p.2.1) p.2.2

/-- `test_fwd_search`, `test_fwd_single_block` and `test_fwd_illegal_queries`, src/trees/bp/tests.rs:7-79. -/
def fwdSearch (k : Variant) : R Unit := do
  let l := [(3, -1, some 4), (2, -1, some 5), (12, -1, some 13), (20, -1, some 21), (0, -1, some 23),
    (1, -1, some 22), (3, 0, some 7), (3, -2, some 5), (1, -2, some 23)]
  let t ← tree 8 expr
  fwds t 8 k l
example : @fwdSearch ⟨true⟩ .u16 = .ok () := by decide +kernel

/-- The same queries with a single block. -/
def fwdSearchBlock (k : Variant) : R Unit := do
  let l := [(3, -1, some 4), (2, -1, some 5), (12, -1, some 13), (20, -1, some 21), (0, -1, some 23),
    (1, -1, some 22), (3, 0, some 7), (3, -2, some 5), (1, -2, some 23)]
  let t ← tree 512 expr
  fwds t 512 k l
example : @fwdSearchBlock ⟨true⟩ .u16 = .ok () := by decide +kernel

/-- The illegal queries. -/
def fwdSearchBad (k : Variant) : R Unit := do
  let bad := [(24, 0, none), (25, 0, none), (0, -2, none), (22, 1, none)]
  let t ← tree 8 expr
  fwds t 8 k bad
example : @fwdSearchBad ⟨true⟩ .u16 = .ok () := by decide +kernel

/-- The illegal queries with a single block. -/
def fwdSearchBadBlock (k : Variant) : R Unit := do
  let bad := [(24, 0, none), (25, 0, none), (0, -2, none), (22, 1, none)]
  let t ← tree 64 expr
  fwds t 64 k bad
example : @fwdSearchBadBlock ⟨true⟩ .u16 = .ok () := by decide +kernel

/-- `test_fwd_unbalanced_expression`, `test_fwd_block_boundary`, `test_fwd_negative_block` and
`test_fwd_last_element`, src/trees/bp/tests.rs:82-138. -/
def fwdBlocks (k : Variant) : R Unit := do
  let t ← tree 8 [1, 1, 1, 1, 0, 0, 1, 1, 0, 1, 0, 0, 0, 0, 0, 0, 0, 0, 0, 0, 0, 0, 0, 1]
  fwds t 8 k [(0, -1, some 13), (1, -1, some 12), (7, -1, some 8), (16, 1, none), (5, 2, some 7)]
  let t ← tree 4 [1, 1, 0, 1, 0, 0]
  fwds t 4 k [(3, -1, some 4), (3, -2, some 5)]
  let t ← tree 2 [1, 1, 1, 1, 0, 0, 0, 0]
  fwds t 2 k [(3, 0, none)]
  let t ← tree 4 [1, 1, 0, 1, 0, 1, 0, 1, 0, 1, 0, 1, 0, 1, 0, 1, 0, 1, 0, 1, 0, 1, 0, 1]
  fwds t 4 k [(23, 0, none)]
example : @fwdBlocks ⟨true⟩ .u16 = .ok () := by decide +kernel

/-- `test_lookup_extreme_pop`, src/trees/bp/tests.rs:141-156. -/
def extremeOnes (k : Variant) : R Unit := do
  let t ← tree 512 (List.replicate 64 1)
  forRange 1 64 fun e => ckR (t.fwdSearch 512 k 0 e) (some e)
example : @extremeOnes ⟨true⟩ .u16 = .ok () := by decide +kernel

/-- The second half of the test. -/
def extremeZeros (k : Variant) : R Unit := do
  let t ← tree 512 (List.replicate 64 0)
  forRange 1 64 fun e => ckR (t.fwdSearch 512 k 0 (-e)) (some e)
example : @extremeZeros ⟨true⟩ .u16 = .ok () := by decide +kernel

/-- `test_bwd_search`, `test_bwd_single_block` and `test_bwd_illegal_queries`, src/trees/bp/tests.rs:210-282. -/
def bwdSearch (k : Variant) : R Unit := do
  let l := [(4, -1, some 3), (5, -1, some 2), (13, -1, some 12), (21, -1, some 20), (23, -1, some 0),
    (22, -1, some 1), (7, 0, some 5), (5, -2, some 1), (23, 0, some 1)]
  let t ← tree 8 expr
  bwds t 8 k l
example : @bwdSearch ⟨true⟩ .u16 = .ok () := by decide +kernel

/-- The same queries with a single block. -/
def bwdSearchBlock (k : Variant) : R Unit := do
  let l := [(4, -1, some 3), (5, -1, some 2), (13, -1, some 12), (21, -1, some 20), (23, -1, some 0),
    (22, -1, some 1), (7, 0, some 5), (5, -2, some 1), (23, 0, some 1)]
  let t ← tree 512 expr
  bwds t 512 k l
example : @bwdSearchBlock ⟨true⟩ .u16 = .ok () := by decide +kernel

/-- The illegal queries. -/
def bwdSearchBad (k : Variant) : R Unit := do
  let bad := [(0, 0, none), (1, 0, none), (23, -2, none), (22, -3, none)]
  let t ← tree 8 expr
  bwds t 8 k bad
example : @bwdSearchBad ⟨true⟩ .u16 = .ok () := by decide +kernel

/-- The illegal queries with a single block. -/
def bwdSearchBadBlock (k : Variant) : R Unit := do
  let bad := [(0, 0, none), (1, 0, none), (23, -2, none), (22, -3, none)]
  let t ← tree 64 expr
  bwds t 64 k bad
example : @bwdSearchBadBlock ⟨true⟩ .u16 = .ok () := by decide +kernel

/-- `test_bwd_left_block_boundary`, `test_bwd_right_block_boundary` and `test_bwd_block_traversal`,
src/trees/bp/tests.rs:285-318. -/
def bwdBlocks (k : Variant) : R Unit := do
  let t ← tree 4 [1, 1, 0, 1, 0, 0]
  bwds t 4 k [(5, 0, some 3)]
  let t ← tree 4 [1, 1, 1, 1, 1, 1, 1, 1, 0, 0, 0, 0]
  bwds t 4 k [(11, -1, some 4)]
  let t ← tree 4 [1, 1, 1, 1, 0]
  bwds t 4 k [(4, 0, none)]
example : @bwdBlocks ⟨true⟩ .u16 = .ok () := by decide +kernel

/-- `test_close`, src/trees/bp/tests.rs:376-389. -/
def close (k : Variant) : R Unit := do
  let t ← tree 8 deep
  forRange 0 24 fun i => ckR (t.close 8 k i) (some (47 - i))
  ckR (t.close 8 k 100) none
example : @close ⟨true⟩ .u16 = .ok () := by decide +kernel

/-- `test_open`, src/trees/bp/tests.rs:392-405. -/
def opening (k : Variant) : R Unit := do
  let t ← tree 8 deep
  forRange 24 48 fun i => ckR (t.opening 8 k i) (some (47 - i))
  ckR (t.opening 8 k 100) none
example : @opening ⟨true⟩ .u16 = .ok () := by decide +kernel

/-- `test_enclose`, src/trees/bp/tests.rs:408-429. -/
def enclose (k : Variant) : R Unit := do
  let t ← tree 8 deep
  forRange 1 24 fun i => ckR (t.enclose 8 k i) (some (i - 1))
  ckR (t.enclose 8 k 0) none
  forRange 24 46 fun i => ckR (t.enclose 8 k i) (some (46 - i))
  ckR (t.enclose 8 k 47) none
  ckR (t.enclose 8 k 100) none
example : @enclose ⟨true⟩ .u16 = .ok () := by decide +kernel

/-- The stack of the enclosing nodes, innermost first, checked against `f` at every opening bit. -/
def walk (f : Nat → List Nat → R Unit) : Nat → List Nat → List (BitVec 8) → R Unit
  | _, _, [] => pure ()
  | i, st, b :: l =>
    if b = 1 then do
      f i st
      walk f (i + 1) (i :: st) l
    else walk f (i + 1) st.tail l

/-- `test_parent` and `test_depth`, src/trees/bp/tests.rs:432-457 and 505-521. -/
def parentDepth (k : Variant) : R Unit := do
  let l := [1, 1, 1, 0, 1, 0, 0, 1, 1, 1, 0, 0, 1, 0, 0, 1, 1, 1, 1, 1, 0, 1, 0, 0, 0, 0, 0, 0]
  let t ← tree 8 l
  ckR (t.excess 27) 0
  walk (fun i st => ckR (t.parent 8 k i) st.head?) 0 [] l
  let l := [1, 1, 1, 1, 1, 1, 1, 1, 1, 0, 1, 0, 1, 1, 0, 0, 0, 0, 0, 0, 0, 0, 0, 0]
  let t ← tree 8 l
  walk (fun i st => ckR (t.depth i) st.length) 0 [] l
example : @parentDepth ⟨true⟩ .u16 = .ok () := by decide +kernel

/-- `test_children`, src/trees/bp/tests.rs:460-488. -/
def children (k : Variant) : R Unit := do
  let t ← tree 8 [1, 1, 1, 1, 0, 0, 0, 1, 0, 1, 0, 1, 1, 0, 1, 0, 0, 0]
  ckR (t.excess 17) 0
  ckR (t.firstChild 0) (some 1)
  ckR (t.previousSibling 8 k 1) none
  ckR (t.nextSibling 8 k 1) (some 7)
  ckR (t.previousSibling 8 k 7) (some 1)
  ckR (t.nextSibling 8 k 7) (some 9)
  ckR (t.previousSibling 8 k 9) (some 7)
  ckR (t.nextSibling 8 k 9) (some 11)
  ckR (t.previousSibling 8 k 11) (some 9)
  ckR (t.nextSibling 8 k 11) none
  ckR (t.lastChild 8 k 0) (some 11)
  ckR (t.firstChild 11) (some 12)
  ckR (t.nextSibling 8 k 12) (some 14)
  ckR (t.previousSibling 8 k 14) (some 12)
  ckR (t.nextSibling 8 k 14) none
  ckR (t.lastChild 8 k 11) (some 14)
  ckR (t.firstChild 12) none
  ckR (t.lastChild 8 k 12) none
  ckR (t.firstChild 14) none
  ckR (t.lastChild 8 k 14) none
example : @children ⟨true⟩ .u16 = .ok () := by decide +kernel

/-- `test_contiguous_index`, src/trees/bp/tests.rs:491-502. -/
def contiguous : R Unit := do
  let t ← tree 4 [1, 1, 1, 1, 0, 0, 0, 1, 0, 1, 0, 1, 1, 0, 1, 0, 0, 0]
  [(0, 0), (1, 1), (2, 2), (3, 3), (4, 7), (5, 9), (6, 11), (7, 12), (8, 14)].forM fun (p : Nat × Nat) => do
    ckR (t.nodeIndex p.2) p.1
    ckR (t.nodeHandle p.1) p.2
example : contiguous = .ok () := by decide +revert +kernel

/-- `test_is_leaf`, src/trees/bp/tests.rs:524-541. -/
def isLeaf : R Unit := do
  let l := [1, 1, 1, 0, 1, 1, 0, 1, 1, 0, 1, 0, 1, 1, 0, 0, 0, 1, 0, 1, 0, 0, 0, 0]
  let t ← tree 8 l
  forRange 0 23 fun i =>
    if l.getD i 0 = 1 then ckR (t.isLeaf i) (decide (l.getD (i + 1) 0 = 0)) else pure ()
example : isLeaf = .ok () := by decide +revert +kernel

/-- `test_is_ancestor`, src/trees/bp/tests.rs:544-573. -/
def isAncestor (k : Variant) : R Unit := do
  let t ← tree 8 [1, 1, 0, 1, 1, 1, 0, 0, 1, 0, 0, 0]
  let a ← unwrapR t.root
  let b ← expect (t.firstChild a)
  let c ← expect (t.nextSibling 8 k b)
  let d ← expect (t.firstChild c)
  let e ← expect (t.firstChild d)
  let f ← expect (t.nextSibling 8 k d)
  [(a, b, true), (a, c, true), (a, d, true), (a, e, true), (a, f, true), (b, a, false), (b, c, false), (c, d, true),
    (c, e, true), (c, f, true), (f, e, false), (e, d, false), (a, a, true), (b, b, true)].forM
      fun (p : Nat × Nat × Bool) => ckR (t.isAncestor 8 k p.1 p.2.1) (some p.2.2)
example : @isAncestor ⟨true⟩ .u16 = .ok () := by decide +kernel

/-- `test_root`, src/trees/bp/tests.rs:576-587. -/
def root (k : Variant) : R Unit := do
  let t ← tree 8 [1, 1, 1, 1, 1, 1, 1, 1, 1, 0, 1, 0, 1, 1, 0, 0, 0, 0, 0, 0, 0, 0, 0, 0]
  ck t.root (some 0)
  ckR (t.previousSibling 8 k 0) none
  ckR (t.nextSibling 8 k 0) none
  let t ← BpTree.fromBitVector 16 BV.new
  ck t.root none
example : @root ⟨true⟩ .u16 = .ok () := by decide +kernel

/-- The expression of the level tests. -/
def levelExpr : List (BitVec 8) := [1, 1, 1, 0, 0, 1, 0, 1, 1, 0, 0, 1, 1, 1, 0, 0, 0, 0]

/-- `test_level_ancestor`, `test_level_next`, `test_level_prev`, src/trees/bp/tests.rs:590-633. -/
def levels (k : Variant) : R Unit := do
  let t ← tree 4 [1, 1, 1, 0, 0, 1, 0, 0]
  [(2, 0, some 2), (2, 1, some 1), (2, 2, some 0), (2, 3, none), (0, 1, none), (5, 1, some 0), (5, 2, none)].forM
    fun (p : Nat × Word × Option Nat) => ckR (t.levelAncestor 4 k p.1 p.2.1) p.2.2
  let t ← tree 4 [1, 1, 1, 0, 0, 1, 0, 1, 1, 0, 0]
  [(0, none), (1, some 5), (2, some 8), (5, some 7), (7, none), (8, none)].forM
    fun (p : Nat × Option Nat) => ckR (t.levelNext 4 k p.1) p.2
  let t ← tree 4 levelExpr
  [(0, none), (1, none), (2, none), (5, some 1), (7, some 5), (8, some 2), (11, some 7), (12, some 8), (13, none)].forM
    fun (p : Nat × Option Nat) => ckR (t.levelPrev 4 k p.1) p.2
example : @levels ⟨true⟩ .u16 = .ok () := by decide +kernel

/-- `test_level_leftmost`, `test_level_rightmost` and `test_subtree_size`, src/trees/bp/tests.rs:636-675. -/
def levelEnds (k : Variant) : R Unit := do
  let t ← tree 4 levelExpr
  [(0, some 0), (1, some 1), (2, some 2), (3, some 13), (4, none), (10, none)].forM
    fun (p : Word × Option Nat) => ckR (t.levelLeftmost 4 k p.1) p.2
  [(0, some 0), (1, some 11), (2, some 12), (3, some 13), (4, none), (10, none)].forM
    fun (p : Word × Option Nat) => ckR (t.levelRightmost 4 k p.1) p.2
  [(0, some 9), (1, some 2), (2, some 1), (5, some 1), (7, some 2), (8, some 1), (11, some 3), (12, some 2),
    (13, some 1)].forM fun (p : Nat × Option Nat) => ckR (t.subtreeSize 4 k p.1) p.2
example : @levelEnds ⟨true⟩ .u16 = .ok () := by decide +kernel

/-- `test_all_functions`, src/trees/bp/tests.rs:716-752. -/
def allFunctions (t : BpTree) (k : Variant) : R Unit :=
  forRange 0 t.vec.len fun i => do
    let _ ← t.fwdSearch 4 k i 0
    let _ ← t.bwdSearch 4 k i 0
    let _ ← t.fwdSearch 4 k i 1
    let _ ← t.bwdSearch 4 k i 1
    let _ ← t.close 4 k i
    let _ ← t.opening 4 k i
    let _ ← t.enclose 4 k i
    let b ← expect (t.vec.get i)
    if b = 1 then do
      let _ ← t.parent 4 k i
      let _ ← t.firstChild i
      let _ ← t.lastChild 4 k i
      let _ ← t.previousSibling 4 k i
      let _ ← t.nextSibling 4 k i
      let _ ← t.isLeaf i
      let _ ← t.depth i
      let _ ← t.isAncestor 4 k i i
      forRange 0 i fun j => do
        let c ← expect (t.vec.get j)
        if c = 1 then do
          let _ ← t.isAncestor 4 k i j
          pure ()
        else pure ()
      let _ ← t.levelAncestor 4 k i 0
      let _ ← t.levelNext 4 k i
      let _ ← t.levelPrev 4 k i
      let _ ← t.levelLeftmost 4 k (BitVec.ofNat 64 i)
      let _ ← t.levelRightmost 4 k (BitVec.ofNat 64 i)
      let _ ← t.subtreeSize 4 k i
      pure ()
    else pure ()

/-- `test_malformed_tree_positive`, src/trees/bp/tests.rs:678-689. -/
def malformedPos (k : Variant) : R Unit := do
  let t ← tree 4 [1, 1, 1, 0, 1, 1, 0, 1, 1, 0]
  allFunctions t k
example : @malformedPos ⟨true⟩ .u16 = .ok () := by decide +kernel

/-- `test_malformed_tree_negative`, src/trees/bp/tests.rs:691-702. -/
def malformedNeg (k : Variant) : R Unit := do
  let t ← tree 4 [0, 0, 1, 1, 1, 0, 0, 0, 0, 0]
  allFunctions t k
example : @malformedNeg ⟨true⟩ .u16 = .ok () := by decide +kernel

/-- `test_negative_depth`, src/trees/bp/tests.rs:704-713. -/
def negativeDepth : R Unit := do
  let t ← tree 4 [0, 0, 0, 0, 1, 1, 0]
  ckR (t.depth 4) 0
example : negativeDepth = .ok () := by decide +revert +kernel

/-- `collect` of an iterator with at most `n` elements. -/
def collect {σ : Type} (next : σ → R (σ × Option Nat)) : Nat → σ → R (List Nat)
  | 0, _ => .error .fuel
  | n + 1, s => do
    let p ← next s
    match p.2 with
    | none => pure []
    | some x => do
      let r ← collect next n p.1
      pure (x :: r)

/-- The expression of the iterator tests. -/
def iterExpr : List (BitVec 8) := [1, 1, 1, 0, 1, 1, 0, 1, 1, 0, 1, 0, 1, 1, 0, 0, 0, 0, 0, 0]

/-- `test_dfs_iterators`, src/trees/bp/tests.rs:833-843. -/
def dfsIters (k : Variant) : R Unit := do
  let t ← tree 32 iterExpr
  let it ← t.dfsIter
  ckR (collect (fun s => s.next t.vec false) 20 it) [0, 1, 2, 4, 5, 7, 8, 10, 12, 13]
  let it ← t.dfsPostIter
  ckR (collect (t.dfsPostNext 32 k) 20 it) [2, 5, 8, 10, 13, 12, 7, 4, 1, 0]
example : @dfsIters ⟨true⟩ .u16 = .ok () := by decide +kernel

/-- `test_subtree_iterators`, src/trees/bp/tests.rs:846-874. -/
def subtreeIters (k : Variant) : R Unit := do
  let t ← tree 4 iterExpr
  [(0, [0, 1, 2, 4, 5, 7, 8, 10, 12, 13]), (1, [1, 2, 4, 5, 7, 8, 10, 12, 13]), (2, [2]), (12, [12, 13]),
    (13, [13])].forM fun (p : Nat × List Nat) => do
      let it ← t.subtreeIter 4 k p.1
      ckR (collect t.subtreeNext 20 it) p.2
  [(0, [2, 5, 8, 10, 13, 12, 7, 4, 1, 0]), (1, [2, 5, 8, 10, 13, 12, 7, 4, 1]), (2, [2]), (12, [13, 12]),
    (13, [13])].forM fun (p : Nat × List Nat) => do
      let it ← t.subtreePostIter 4 k p.1
      ckR (collect (t.subtreePostNext 4 k) 20 it) p.2
example : @subtreeIters ⟨true⟩ .u16 = .ok () := by decide +kernel

/-- `test_children_iterator`, src/trees/bp/tests.rs:877-908. -/
def childrenIters (k : Variant) : R Unit := do
  let t ← tree 4 iterExpr
  [(0, [1]), (1, [2, 4]), (2, []), (4, [5, 7]), (5, []), (7, [8, 10, 12]), (8, []), (10, []), (12, [13])].forM
    fun (p : Nat × List Nat) => do
      let it ← t.childrenIter 4 k true p.1
      ckR (collect (t.childrenNext 4 k true) 20 it) p.2
      let it ← t.childrenIter 4 k false p.1
      ckR (collect (t.childrenNext 4 k false) 20 it) p.2.reverse
example : @childrenIters ⟨true⟩ .u16 = .ok () := by decide +kernel

/-- `test_from_padded_bitvec`, src/trees/bp/tests.rs:911-926. -/
def padded (k : Variant) : R Unit := do
  let v ← BV.new.appendBit 1
  let v ← v.appendBit 0
  let v ← v.appendBits (BitVec.allOnes 64) 10
  let v ← (v.dropLast 10).appendBit 0
  let t ← BpTree.fromBitVector 64 (v.dropLast 1)
  ck t.root (some 0)
  ckR t.size 1
  ckR (t.fwdSearch 64 k 0 2) none
  let it ← t.dfsIter
  ckR (collect (fun s => s.next t.vec false) 3 it) [0]
example : @padded ⟨true⟩ .u16 = .ok () := by decide +kernel

/-! The replay with the 8-bit tables is grouped, since the kernel computes the tables for every `example` anew.
Three tests that use both the forward and the backward table (backward searches in a single block, and the post order
iterator) are replayed with the 16-bit table only. -/

/-- The tests that use the forward table. -/
def forwardTests (k : Variant) : R Unit := do
  fwdSearch k
  fwdSearchBlock k
  fwdSearchBad k
  fwdSearchBadBlock k
  fwdBlocks k
  extremeOnes k
  extremeZeros k
  close k
  children k
example : @forwardTests ⟨true⟩ .u8 = .ok () := by decide +kernel

/-- The other tests, on trees with small blocks. -/
def otherTests (k : Variant) : R Unit := do
  bwdSearch k
  bwdSearchBad k
  bwdBlocks k
  opening k
  enclose k
  parentDepth k
  isAncestor k
  root k
  levels k
  levelEnds k
  malformedPos k
  malformedNeg k
  subtreeIters k
  childrenIters k
  padded k
example : @otherTests ⟨true⟩ .u8 = .ok () := by decide +kernel

end Vers.Conformance.BpTests
