import Verif.Proofs.Profile
import Verif.Proofs.Space

set_option linter.unusedVariables false

/-!
# C66: debug builds and release builds return the same results

The model is generic in the build profile. For every public function and **every** value of its arguments,
the debug build and the release build return the same value or panic in the same way, unless the debug build
panics because of an arithmetic overflow or a failed assertion. So everything that is observed in a debug
build without a panic is also observed in a release build. `BuildsAgree` is defined in `SpecProfile.lean`.
-/

namespace Vers
open Spec

/-- **C66** (reading): a value returned by the debug build is returned by the release build. -/
theorem C66_value {α : Type} {call : [Profile] → R α} (h : BuildsAgree call) {x : α} (hx : @call dbg = .ok x) :
    @call rel = .ok x := by
  have h : Agree (@call dbg) (@call rel) := h
  rcases h with h | h | h
  · rw [← h, hx]
  · rw [hx] at h; cases h
  · rw [hx] at h; cases h

example : @BV.getBits rel ⟨[0b1011#64], 4⟩ 1 3 = .ok (some 0b101#64) :=
  C66_value (call := fun {_} => BV.getBits ⟨[0b1011#64], 4⟩ 1 3) (BV.getBits_agree _ _ _) (by decide +kernel)

/-- **C66** (reading): a panic of the release build is a panic of the debug build. -/
theorem C66_panic {α : Type} {call : [Profile] → R α} (h : BuildsAgree call) {p : Panic} (hx : @call rel = .error p) :
    ∃ p', @call dbg = .error p' := by
  have h : Agree (@call dbg) (@call rel) := h
  rcases h with h | h | h
  · exact ⟨p, by rw [h, hx]⟩
  · exact ⟨_, h⟩
  · exact ⟨_, h⟩

/-- `from_slice_pc` panics on an element of more than `k` bits in both builds -/
example : ∃ p, @WM.fromSlicePc dbg [5#64] 2 = .error p :=
  C66_panic (call := fun {_} => WM.fromSlicePc [5#64] 2) (WM.fromSlicePc_agree ..) (p := .oob) (by decide +kernel)

/-- **C66** (client programs): a program that makes a call and continues with a program that depends on its
result agrees in the two builds if the call and the continuation do. -/
theorem C66_compose {α β : Type} {call : [Profile] → R α} {cont : [Profile] → α → R β} (h : BuildsAgree call)
    (hc : ∀ x, BuildsAgree (cont x)) : BuildsAgree (call >>= cont) := Agree.bind h hc

/-- a constructor followed by a query -/
example : @BuildsAgree Nat (fun {_} => BinRmq.fromVec [3#64, 1#64, 2#64] >>= fun s => s.rangeMin 0 2) :=
  C66_compose (BinRmq.fromVec_agree ..) fun _ => BinRmq.rangeMin_agree ..

/-- **C66** (bit vectors and masked views) -/
theorem C66_bit_vec (v w : BV) (m : Masked) (l : List BV) (i n : Nat) :
    BuildsAgree (v.extendBitvec w) ∧
    BuildsAgree (v.extend l) ∧
    BuildsAgree (v.getBits i n) ∧
    BuildsAgree (v.getBitsUnchecked i n) ∧
    BuildsAgree (v.unpackElement i n) ∧
    BuildsAgree (v.unpackElementUnchecked i n) ∧
    BuildsAgree (v.countZeros) ∧
    BuildsAgree (v.splitAt i) ∧
    BuildsAgree (v.splitAtUnchecked i) ∧
    BuildsAgree (v.eq w) ∧
    BuildsAgree (v.hashInput) ∧
    BuildsAgree (m.getBits i n) ∧
    BuildsAgree (m.getBitsUnchecked i n) ∧
    BuildsAgree (m.countZeros) :=
  ⟨Agree.rfl' _,
   Agree.rfl' _,
   BV.getBits_agree ..,
   BV.getBitsUnchecked_agree ..,
   BV.unpackElement_agree ..,
   BV.unpackElementUnchecked_agree ..,
   BV.countZeros_agree ..,
   BV.splitAt_agree ..,
   BV.splitAtUnchecked_agree ..,
   BV.eq_agree ..,
   BV.hashInput_agree ..,
   Masked.getBits_agree ..,
   Masked.getBitsUnchecked_agree ..,
   Masked.countZeros_agree ..⟩

example : @BV.unpackElement rel ⟨[0b110110#64], 6⟩ 1 3 = .ok (some 0b110#64) :=
  C66_value (C66_bit_vec ⟨[0b110110#64], 6⟩ BV.new ⟨BV.new, BV.new, fun x _ => x⟩ [] 1 3).2.2.2.2.1 (by decide +kernel)

/-- **C66** (rank and select): construction, queries with and without SIMD, equality, both select iterators with every call, and the bit-set iterator -/
theorem C66_rs_vec (v : BV) (r s : RsVec) (zero simd : Bool) (i n : Nat) (it : SelIter) (op : Spec.IterOp) (b : BsIter) :
    BuildsAgree (RsVec.fromBitVec v) ∧
    BuildsAgree (r.rank zero i) ∧
    BuildsAgree (r.select zero i) ∧
    BuildsAgree (r.selectSimd zero i) ∧
    BuildsAgree (r.getBits i n) ∧
    BuildsAgree (r.getBitsUnchecked i n) ∧
    BuildsAgree (r.eq s simd) ∧
    BuildsAgree (r.sparseEquals (zero := zero) s simd) ∧
    BuildsAgree (SelIter.new r zero) ∧
    BuildsAgree (it.step r zero op) ∧
    BuildsAgree (it.stepSimd r zero op) ∧
    BuildsAgree (it.last r zero simd) ∧
    BuildsAgree (it.advanceBackBy n) ∧
    BuildsAgree (BsIter.new r zero) ∧
    BuildsAgree (b.next r zero) :=
  ⟨RsVec.fromBitVec_agree ..,
   RsVec.rank_agree ..,
   RsVec.select_agree ..,
   RsVec.selectSimd_agree ..,
   RsVec.getBits_agree ..,
   RsVec.getBitsUnchecked_agree ..,
   RsVec.eq_agree ..,
   RsVec.sparseEquals_agree ..,
   SelIter.new_agree ..,
   SelIter.step_agree ..,
   SelIter.stepSimd_agree ..,
   SelIter.last_agree ..,
   SelIter.advanceBackBy_agree ..,
   BsIter.new_agree ..,
   BsIter.next_agree ..⟩

example : letI := rel; (do
    let rs ← RsVec.fromBitVec ⟨[5#64], 3⟩
    rs.select false 1) = .ok 2 :=
  C66_value (call := fun {_} => RsVec.fromBitVec ⟨[5#64], 3⟩ >>= fun rs => rs.select false 1)
    (C66_compose (RsVec.fromBitVec_agree ..) fun _ => RsVec.select_agree ..) (by decide +kernel)

/-- **C66** (Elias-Fano vectors and sparse vectors) -/
theorem C66_elias_fano (fl : Nat → Nat) (data : List Word) (ef : EF) (s : Sparse) (v : BV) (i : Nat) (x : Word) (it : EfIter) (op : Spec.IterOp) :
    BuildsAgree (EF.fromSlice fl data) ∧
    BuildsAgree (ef.get i) ∧
    BuildsAgree (ef.getUnchecked i) ∧
    BuildsAgree (ef.predecessor x) ∧
    BuildsAgree (ef.predecessorUnchecked x) ∧
    BuildsAgree (ef.successor x) ∧
    BuildsAgree (ef.successorUnchecked x) ∧
    BuildsAgree (ef.rank x) ∧
    BuildsAgree (ef.delta i) ∧
    BuildsAgree (ef.select i) ∧
    BuildsAgree (EfIter.new ef) ∧
    BuildsAgree (it.step ef op) ∧
    BuildsAgree (it.last ef) ∧
    BuildsAgree (it.minItem ef) ∧
    BuildsAgree (it.advanceBy ef i) ∧
    BuildsAgree (it.advanceBackBy ef i) ∧
    BuildsAgree (Sparse.new fl data x) ∧
    BuildsAgree (Sparse.fromBitVec fl v) ∧
    BuildsAgree (Sparse.fromBitVecInverted fl v) ∧
    BuildsAgree (Sparse.convert fl v) ∧
    BuildsAgree (s.isSet x) ∧
    BuildsAgree (s.isSetUnchecked x) ∧
    BuildsAgree (s.get x) ∧
    BuildsAgree (s.getUnchecked x) ∧
    BuildsAgree (s.select1 i) ∧
    BuildsAgree (s.rank1 x) ∧
    BuildsAgree (s.rank0 x) ∧
    BuildsAgree (s.iter1) :=
  ⟨EF.fromSlice_agree ..,
   EF.get_agree ..,
   EF.getUnchecked_agree ..,
   EF.predecessor_agree ..,
   EF.predecessorUnchecked_agree ..,
   EF.successor_agree ..,
   EF.successorUnchecked_agree ..,
   EF.rank_agree ..,
   EF.delta_agree ..,
   EF.select_agree ..,
   EfIter.new_agree ..,
   EfIter.step_agree ..,
   EfIter.last_agree ..,
   EfIter.minItem_agree ..,
   EfIter.advanceBy_agree ..,
   EfIter.advanceBackBy_agree ..,
   Sparse.new_agree ..,
   Sparse.fromBitVec_agree ..,
   Sparse.fromBitVecInverted_agree ..,
   Sparse.convert_agree ..,
   Sparse.isSet_agree ..,
   Sparse.isSetUnchecked_agree ..,
   Sparse.get_agree ..,
   Sparse.getUnchecked_agree ..,
   Sparse.select1_agree ..,
   Sparse.rank1_agree ..,
   Sparse.rank0_agree ..,
   Sparse.iter1_agree ..⟩

example : letI := rel; (do
    let ef ← EF.fromSlice Nat.log2 [2#64, 5#64, 9#64]
    ef.successor 3#64) = .ok (some 5#64) :=
  C66_value (call := fun {_} => EF.fromSlice Nat.log2 [2#64, 5#64, 9#64] >>= fun ef => ef.successor 3#64)
    (C66_compose (EF.fromSlice_agree ..) fun _ => EF.successor_agree ..) (by decide +kernel)

/-- **C66** (range minimum queries) -/
theorem C66_rmq (data : List Word) (s : BinRmq) (t : FastRmq) (i j : Nat) (a b : Bnd) :
    BuildsAgree (BinRmq.fromVec data) ∧
    BuildsAgree (s.rangeMin i j) ∧
    BuildsAgree (s.rangeMinWithRange a b) ∧
    BuildsAgree (FastRmq.fromVec data) ∧
    BuildsAgree (t.rangeMin i j) ∧
    BuildsAgree (t.rangeMinWithRange a b) :=
  ⟨BinRmq.fromVec_agree ..,
   BinRmq.rangeMin_agree ..,
   BinRmq.rangeMinWithRange_agree ..,
   FastRmq.fromVec_agree ..,
   FastRmq.rangeMin_agree ..,
   FastRmq.rangeMinWithRange_agree ..⟩

example : (do
    let s ← @FastRmq.fromVec rel [3#64, 1#64, 2#64]
    @FastRmq.rangeMin rel s 0 2) = .ok 1 :=
  C66_value (call := fun {_} => FastRmq.fromVec [3#64, 1#64, 2#64] >>= fun s => s.rangeMin 0 2)
    (C66_compose (FastRmq.fromVec_agree ..) fun _ => FastRmq.rangeMin_agree ..) (by decide +kernel)

/-- **C66** (construction of wavelet matrices) -/
theorem C66_wavelet_build (v : BV) (l : List Word) (k : Nat) :
    BuildsAgree (WM.fromBitVec v k) ∧
    BuildsAgree (WM.fromBitVecPc v k) ∧
    BuildsAgree (WM.fromSlice l k) ∧
    BuildsAgree (WM.fromSlicePc l k) :=
  ⟨WM.fromBitVec_agree ..,
   WM.fromBitVecPc_agree ..,
   WM.fromSlice_agree ..,
   WM.fromSlicePc_agree ..⟩

/-- **C66** (queries of wavelet matrices) -/
theorem C66_wavelet (m : WM) (s : BV) (x : Word) (i j k : Nat) :
    BuildsAgree (m.getValue i) ∧
    BuildsAgree (m.getU64 i) ∧
    BuildsAgree (m.getValueUnchecked i) ∧
    BuildsAgree (m.getU64Unchecked i) ∧
    BuildsAgree (m.rankRange i j s) ∧
    BuildsAgree (m.rankRangeU64 i j x) ∧
    BuildsAgree (m.rankRangeUnchecked i j s) ∧
    BuildsAgree (m.rankRangeU64Unchecked i j x) ∧
    BuildsAgree (m.rankOffset i j s) ∧
    BuildsAgree (m.rankOffsetU64 i j x) ∧
    BuildsAgree (m.rankOffsetUnchecked i j s) ∧
    BuildsAgree (m.rankOffsetU64Unchecked i j x) ∧
    BuildsAgree (m.rank i s) ∧
    BuildsAgree (m.rankU64 i x) ∧
    BuildsAgree (m.rankUnchecked i s) ∧
    BuildsAgree (m.rankU64Unchecked i x) ∧
    BuildsAgree (m.selectOffset i j s) ∧
    BuildsAgree (m.selectOffsetU64 i j x) ∧
    BuildsAgree (m.selectOffsetUnchecked i j s) ∧
    BuildsAgree (m.selectOffsetU64Unchecked i j x) ∧
    BuildsAgree (m.select i s) ∧
    BuildsAgree (m.selectU64 i x) ∧
    BuildsAgree (m.selectUnchecked i s) ∧
    BuildsAgree (m.selectU64Unchecked i x) ∧
    BuildsAgree (m.quantile i j k) ∧
    BuildsAgree (m.quantileU64 i j k) ∧
    BuildsAgree (m.quantileUnchecked i j k) ∧
    BuildsAgree (m.quantileU64Unchecked i j k) ∧
    BuildsAgree (m.getSorted i) ∧
    BuildsAgree (m.getSortedU64 i) ∧
    BuildsAgree (m.getSortedUnchecked i) ∧
    BuildsAgree (m.getSortedU64Unchecked i) ∧
    BuildsAgree (m.rangeMin i j) ∧
    BuildsAgree (m.rangeMinU64 i j) ∧
    BuildsAgree (m.rangeMinUnchecked i j) ∧
    BuildsAgree (m.rangeMinU64Unchecked i j) ∧
    BuildsAgree (m.rangeMax i j) ∧
    BuildsAgree (m.rangeMaxU64 i j) ∧
    BuildsAgree (m.rangeMaxUnchecked i j) ∧
    BuildsAgree (m.rangeMaxU64Unchecked i j) ∧
    BuildsAgree (m.rangeMedian i j) ∧
    BuildsAgree (m.rangeMedianU64 i j) ∧
    BuildsAgree (m.rangeMedianUnchecked i j) ∧
    BuildsAgree (m.rangeMedianU64Unchecked i j) ∧
    BuildsAgree (m.predecessor i j s) ∧
    BuildsAgree (m.predecessorU64 i j x) ∧
    BuildsAgree (m.successor i j s) ∧
    BuildsAgree (m.successorU64 i j x) :=
  ⟨WM.getValue_agree ..,
   WM.getU64_agree ..,
   WM.getValueUnchecked_agree ..,
   WM.getU64Unchecked_agree ..,
   WM.rankRange_agree ..,
   WM.rankRangeU64_agree ..,
   WM.rankRangeUnchecked_agree ..,
   WM.rankRangeU64Unchecked_agree ..,
   WM.rankOffset_agree ..,
   WM.rankOffsetU64_agree ..,
   WM.rankOffsetUnchecked_agree ..,
   WM.rankOffsetU64Unchecked_agree ..,
   WM.rank_agree ..,
   WM.rankU64_agree ..,
   WM.rankUnchecked_agree ..,
   WM.rankU64Unchecked_agree ..,
   WM.selectOffset_agree ..,
   WM.selectOffsetU64_agree ..,
   WM.selectOffsetUnchecked_agree ..,
   WM.selectOffsetU64Unchecked_agree ..,
   WM.select_agree ..,
   WM.selectU64_agree ..,
   WM.selectUnchecked_agree ..,
   WM.selectU64Unchecked_agree ..,
   WM.quantile_agree ..,
   WM.quantileU64_agree ..,
   WM.quantileUnchecked_agree ..,
   WM.quantileU64Unchecked_agree ..,
   WM.getSorted_agree ..,
   WM.getSortedU64_agree ..,
   WM.getSortedUnchecked_agree ..,
   WM.getSortedU64Unchecked_agree ..,
   WM.rangeMin_agree ..,
   WM.rangeMinU64_agree ..,
   WM.rangeMinUnchecked_agree ..,
   WM.rangeMinU64Unchecked_agree ..,
   WM.rangeMax_agree ..,
   WM.rangeMaxU64_agree ..,
   WM.rangeMaxUnchecked_agree ..,
   WM.rangeMaxU64Unchecked_agree ..,
   WM.rangeMedian_agree ..,
   WM.rangeMedianU64_agree ..,
   WM.rangeMedianUnchecked_agree ..,
   WM.rangeMedianU64Unchecked_agree ..,
   WM.predecessor_agree ..,
   WM.predecessorU64_agree ..,
   WM.successor_agree ..,
   WM.successorU64_agree ..⟩

example : (do
    let m ← @WM.fromSlice rel [5#64, 1#64, 7#64] 3
    @WM.quantileU64 rel m 0 3 1) = .ok (some 5#64) :=
  C66_value (call := fun {_} => WM.fromSlice [5#64, 1#64, 7#64] 3 >>= fun m => m.quantileU64 0 3 1)
    (C66_compose (C66_wavelet_build BV.new _ _).2.2.1 fun _ => WM.quantileU64_agree ..) (by decide +kernel)

/-- **C66** (element iterators of bit vectors, rank/select vectors and wavelet matrices) -/
theorem C66_iterators (v : BV) (r : RsVec) (m : WM) (it : GenIter) (op : Spec.IterOp) (i : Nat) :
    BuildsAgree (it.step (BV.vecOps v) op) ∧
    BuildsAgree (it.last (BV.vecOps v)) ∧
    BuildsAgree (it.step (RsVec.vecOps r) op) ∧
    BuildsAgree (it.last (RsVec.vecOps r)) ∧
    BuildsAgree (it.step m.valueOps op) ∧
    BuildsAgree (it.last m.valueOps) ∧
    BuildsAgree (it.step m.numOps op) ∧
    BuildsAgree (it.last m.numOps) ∧
    BuildsAgree (it.step m.sortedOps op) ∧
    BuildsAgree (it.last m.sortedOps) ∧
    BuildsAgree (it.step m.sortedNumOps op) ∧
    BuildsAgree (it.last m.sortedNumOps) ∧
    BuildsAgree (it.advanceBy i) ∧
    BuildsAgree (it.advanceBackBy i) :=
  ⟨GenIter.step_agree _ _ _ _ _ ⟨rfl, fun _ => Agree.rfl' _, fun _ => Agree.rfl' _⟩,
   GenIter.last_agree _ _ _ _ ⟨rfl, fun _ => Agree.rfl' _, fun _ => Agree.rfl' _⟩,
   GenIter.step_agree _ _ _ _ _ ⟨rfl, fun _ => Agree.rfl' _, fun _ => Agree.rfl' _⟩,
   GenIter.last_agree _ _ _ _ ⟨rfl, fun _ => Agree.rfl' _, fun _ => Agree.rfl' _⟩,
   GenIter.step_agree _ _ _ _ _ (WM.valueOps_agree m),
   GenIter.last_agree _ _ _ _ (WM.valueOps_agree m),
   GenIter.step_agree _ _ _ _ _ (WM.numOps_agree m),
   GenIter.last_agree _ _ _ _ (WM.numOps_agree m),
   GenIter.step_agree _ _ _ _ _ (WM.sortedOps_agree m),
   GenIter.last_agree _ _ _ _ (WM.sortedOps_agree m),
   GenIter.step_agree _ _ _ _ _ (WM.sortedNumOps_agree m),
   GenIter.last_agree _ _ _ _ (WM.sortedNumOps_agree m),
   GenIter.advanceBy_agree ..,
   GenIter.advanceBackBy_agree ..⟩

/-- **C66** (balanced parentheses: construction, builder and the operations that do not check their argument) -/
theorem C66_bp_search (v : BV) (t : BpTree) (bs : Nat) (k : Lookup.Variant) (i : Nat) (e : Int) (x : Word) (si : SelIter) (s : BpTree.SubIter) (b : BpBuilder) (cs : List Bool) :
    BuildsAgree (BpTree.fromBitVector bs v) ∧
    BuildsAgree (t.fwdSearch bs k i e) ∧
    BuildsAgree (t.bwdSearch bs k i e) ∧
    BuildsAgree (t.close bs k i) ∧
    BuildsAgree (t.opening bs k i) ∧
    BuildsAgree (t.enclose bs k i) ∧
    BuildsAgree (t.excess i) ∧
    BuildsAgree (t.nodeHandle i) ∧
    BuildsAgree (t.size) ∧
    BuildsAgree (t.levelAncestor bs k i x) ∧
    BuildsAgree (t.levelNext bs k i) ∧
    BuildsAgree (t.levelPrev bs k i) ∧
    BuildsAgree (t.levelLeftmost bs k x) ∧
    BuildsAgree (t.levelRightmost bs k x) ∧
    BuildsAgree (t.dfsIter) ∧
    BuildsAgree (t.dfsPostIter) ∧
    BuildsAgree (t.dfsPostNext bs k si) ∧
    BuildsAgree (t.subtreeNext s) ∧
    BuildsAgree (t.subtreePostNext bs k s) ∧
    BuildsAgree (BpBuilder.withCapacity i) ∧
    BuildsAgree (b.enterNode) ∧
    BuildsAgree (b.leaveNode) ∧
    BuildsAgree (b.build bs) ∧
    BuildsAgree (BpBuilder.calls cs b) :=
  ⟨BpTree.fromBitVector_agree ..,
   BpTree.fwdSearch_agree ..,
   BpTree.bwdSearch_agree ..,
   BpTree.close_agree ..,
   BpTree.opening_agree ..,
   BpTree.enclose_agree ..,
   BpTree.excess_agree ..,
   BpTree.nodeHandle_agree ..,
   BpTree.size_agree ..,
   BpTree.levelAncestor_agree ..,
   BpTree.levelNext_agree ..,
   BpTree.levelPrev_agree ..,
   BpTree.levelLeftmost_agree ..,
   BpTree.levelRightmost_agree ..,
   BpTree.dfsIter_agree ..,
   BpTree.dfsPostIter_agree ..,
   BpTree.dfsPostNext_agree ..,
   BpTree.subtreeNext_agree ..,
   BpTree.subtreePostNext_agree ..,
   BpBuilder.withCapacity_agree ..,
   BpBuilder.enterNode_agree ..,
   BpBuilder.leaveNode_agree ..,
   BpBuilder.build_agree ..,
   BpBuilder.calls_agree ..⟩

example : letI := rel; (do
    let t ← BpTree.fromBitVector 2 ⟨[7#64], 6⟩
    t.close 2 .u16 1) = .ok (some 4) :=
  C66_value (call := fun {_} => BpTree.fromBitVector 2 ⟨[7#64], 6⟩ >>= fun t => t.close 2 .u16 1)
    (C66_compose (BpTree.fromBitVector_agree ..) fun _ => BpTree.close_agree ..) (by decide +kernel)

/-- **C66** (balanced parentheses: the operations that check in debug builds that their argument is a node). Reading a bit of the vector must not panic, which holds for every tree the constructor returns (`C66_bp_reachable`). -/
theorem C66_bp_nodes (t : BpTree) (hv : ∀ i, ∃ o, t.vec.get i = .ok o) (bs : Nat) (k : Lookup.Variant) (i j : Nat) (fwd : Bool) (o : Option Nat) :
    BuildsAgree (t.parent bs k i) ∧
    BuildsAgree (t.firstChild i) ∧
    BuildsAgree (t.nextSibling bs k i) ∧
    BuildsAgree (t.previousSibling bs k i) ∧
    BuildsAgree (t.lastChild bs k i) ∧
    BuildsAgree (t.nodeIndex i) ∧
    BuildsAgree (t.isLeaf i) ∧
    BuildsAgree (t.depth i) ∧
    BuildsAgree (t.isAncestor bs k i j) ∧
    BuildsAgree (t.subtreeSize bs k i) ∧
    BuildsAgree (t.subtreeIter bs k i) ∧
    BuildsAgree (t.subtreePostIter bs k i) ∧
    BuildsAgree (t.childrenIter bs k fwd i) ∧
    BuildsAgree (t.childrenNext bs k fwd o) :=
  ⟨BpTree.parent_agree _ _ _ _ _ hv,
   BpTree.firstChild_agree _ _ hv,
   BpTree.nextSibling_agree _ _ _ _ _ hv,
   BpTree.previousSibling_agree _ _ _ _ _ hv,
   BpTree.lastChild_agree _ _ _ _ _ hv,
   BpTree.nodeIndex_agree _ _ hv,
   BpTree.isLeaf_agree _ _ hv,
   BpTree.depth_agree _ _ hv,
   BpTree.isAncestor_agree _ _ _ _ _ _ hv,
   BpTree.subtreeSize_agree _ _ _ _ _ hv,
   BpTree.subtreeIter_agree _ _ _ _ hv,
   BpTree.subtreePostIter_agree _ _ _ _ hv,
   BpTree.childrenIter_agree _ _ _ _ _ hv,
   BpTree.childrenNext_agree _ _ _ _ _ hv⟩

/-- **C66** (the hypothesis of `C66_bp_nodes`): reading a bit of the vector of a constructed tree never panics. -/
theorem C66_bp_reachable [Profile] {v : BV} (hw : v.WF) {bs : Nat} {t : BpTree} (ht : BpTree.fromBitVector bs v = .ok t) :
    ∀ i, ∃ o, t.vec.get i = .ok o := by
  unfold BpTree.fromBitVector at ht
  obtain ⟨mmt, _, ht⟩ := bind_eq_ok.mp ht
  obtain ⟨vec, hv, ht⟩ := bind_eq_ok.mp ht
  cases ht
  obtain ⟨h1, h2⟩ := fromBitVec_ok hv
  intro i
  unfold BV.WF at hw
  show ∃ o, RsVec.get vec i = .ok o
  unfold RsVec.get RsVec.getUnchecked
  by_cases hi : i ≥ vec.len
  · exact ⟨none, by rw [if_pos hi]; rfl⟩
  · rw [if_neg hi]
    have hlt : i / 64 < vec.data.length := by rw [h1]; omega
    exact ⟨_, by rw [idx_of_lt hlt]; rfl⟩

example [Profile] : ∃ t, BpTree.fromBitVector 8 ⟨[0b0011#64], 4⟩ = .ok t ∧ ∀ i, ∃ o, t.vec.get i = .ok o := by
  obtain ⟨t, h⟩ : ∃ t, BpTree.fromBitVector 8 ⟨[0b0011#64], 4⟩ = .ok t := ⟨_, rfl⟩
  exact ⟨t, h, C66_bp_reachable (by decide) h⟩

/-- The calls agree on a concrete vector and the result is a value. -/
example : @BV.getBits dbg ⟨[0b1011#64], 4⟩ 1 3 = .ok (some 0b101#64) ∧
    @BV.getBits rel ⟨[0b1011#64], 4⟩ 1 3 = .ok (some 0b101#64) := by decide +kernel

/-- The exception is needed: here only the debug build panics. -/
example : @BV.unpackElement dbg ⟨[0b1011#64], 4⟩ (2 ^ 63) 2 = .error .overflow ∧
    @BV.unpackElement rel ⟨[0b1011#64], 4⟩ (2 ^ 63) 2 = .ok (some 0b11#64) := by decide +kernel

end Vers
