import Verif.Proofs.EndsEf
import Verif.Props.Safe

/-!
# C69: every call ends, whatever the content of the structure

A loop whose number of iterations the source does not fix is a recursion on a budget in the model, and the value
`.error .fuel` is what is returned when the budget is used up: the loop would go on. The theorems say that no call returns
it, in debug and in release builds, for every content of the fields in the huge ranges given by `Fits`. In particular a
structure that `serde` reads from untrusted bytes cannot make a query spin. (Sums of the stored counts, e.g. in rank, are exact
in the model; no loop depends on them.)

The exception is the successor search of the Elias-Fano vector in a release build, see `C69_successor_defect`.
-/

namespace Vers

variable [Profile]
open Spec RsVec

/-- C69: rank and select queries, with and without SIMD instructions. -/
theorem C69_select (rs : RsVec) (hf : Fits rs) (zero : Bool) (k : Nat) :
    Ends (rs.rank zero k) ∧ Ends (rs.select zero k) ∧ Ends (rs.selectSimd zero k) :=
  ⟨rank_ends rs zero k, select_ends hf zero k, selectSimd_ends hf zero k⟩

example : Fits inconsistentVec ∧ Ends (inconsistentVec.select true 100) :=
  ⟨⟨by decide, by decide⟩, (C69_select inconsistentVec ⟨by decide, by decide⟩ true 100).2.1⟩

/-- C69: each call of an iterator over the positions of the zeros or the ones, from every state of the iterator. -/
theorem C69_iterators (rs : RsVec) (hf : Fits rs) (zero simd : Bool) (it : SelIter) (op : IterOp) :
    Ends (SelIter.new rs zero) ∧ Ends (SelIter.step rs zero it op) ∧ Ends (SelIter.stepSimd rs zero it op) ∧
      Ends (it.last rs zero simd) :=
  ⟨SelIter.new_ends rs zero, SelIter.step_ends hf zero it op, SelIter.stepSimd_ends hf zero it op,
    SelIter.last_ends hf zero it simd⟩

example := (C69_iterators inconsistentVec ⟨by decide, by decide⟩ true false ⟨70, some 90, 4000, 100, 4, 9⟩ (.nth 3)).2.1

/-- C69: comparisons of two vectors; nothing is assumed about the second one. -/
theorem C69_equality (rs other : RsVec) (hf : Fits rs) (zero simd : Bool) :
    Ends (sparseEquals zero rs other simd) ∧ Ends (fullEquals rs other) ∧ Ends (rs.eq other simd) :=
  ⟨sparseEquals_ends hf zero other simd, fullEquals_ends rs other, eq_ends hf other simd⟩

example := C69_equality inconsistentVec ⟨[], 9000, [], [], [], 5000, 4000⟩ ⟨by decide, by decide⟩ true false

/-- C69: the bit set iterator. -/
theorem C69_bit_set (rs : RsVec) (zero : Bool) (it : BsIter) : Ends (BsIter.new rs zero) ∧ Ends (BsIter.next rs zero it) :=
  ⟨BsIter.new_ends rs zero, BsIter.next_ends rs zero it⟩

/-- C69: the searches of the parenthesis tree, for every block size, both lookup tables and every relative excess. -/
theorem C69_tree_search (t : BpTree) (bs : Nat) (k : Lookup.Variant) (i : Nat) (e : Int) :
    Ends (t.fwdSearch bs k i e) ∧ Ends (t.bwdSearch bs k i e) ∧ Ends (t.close bs k i) ∧ Ends (t.opening bs k i) ∧
      Ends (t.enclose bs k i) ∧ Ends (t.excess i) :=
  ⟨t.fwdSearch_ends bs k i e, t.bwdSearch_ends bs k i e, t.close_ends bs k i, t.opening_ends bs k i,
    t.enclose_ends bs k i, t.excess_ends i⟩

example := C69_tree_search ⟨inconsistentVec, ⟨[]⟩⟩ 512 .u8 3 (-1)

/-- C69: navigation in the tree. -/
theorem C69_tree (t : BpTree) (hf : Fits t.vec) (bs : Nat) (k : Lookup.Variant) (i j : Nat) :
    Ends (t.parent bs k i) ∧ Ends (t.firstChild i) ∧ Ends (t.nextSibling bs k i) ∧ Ends (t.previousSibling bs k i) ∧
      Ends (t.lastChild bs k i) ∧ Ends (t.nodeIndex i) ∧ Ends (t.nodeHandle i) ∧ Ends (t.isLeaf i) ∧ Ends (t.depth i) ∧
      Ends t.size ∧ Ends (t.isAncestor bs k i j) ∧ Ends (t.subtreeSize bs k i) :=
  ⟨t.parent_ends bs k i, t.firstChild_ends i, t.nextSibling_ends bs k i, t.previousSibling_ends bs k i,
    t.lastChild_ends bs k i, t.nodeIndex_ends i, BpTree.nodeHandle_ends hf i, t.isLeaf_ends i, t.depth_ends i,
    t.size_ends, t.isAncestor_ends bs k i j, t.subtreeSize_ends bs k i⟩

example := C69_tree ⟨inconsistentVec, ⟨[]⟩⟩ ⟨by decide, by decide⟩ 512 .u16 3 4

/-- C69: the level operations of the tree. -/
theorem C69_tree_levels (t : BpTree) (bs : Nat) (k : Lookup.Variant) (i : Nat) (l : Word) :
    Ends (t.levelAncestor bs k i l) ∧ Ends (t.levelNext bs k i) ∧ Ends (t.levelPrev bs k i) ∧
      Ends (t.levelLeftmost bs k l) ∧ Ends (t.levelRightmost bs k l) :=
  ⟨t.levelAncestor_ends bs k i l, t.levelNext_ends bs k i, t.levelPrev_ends bs k i, t.levelLeftmost_ends bs k l,
    t.levelRightmost_ends bs k l⟩

example := C69_tree_levels ⟨inconsistentVec, ⟨[]⟩⟩ 512 .u16 3 (BitVec.ofNat 64 (2 ^ 63))

/-- C69: creation and each call of the iterators of the tree, from every state of the iterator. -/
theorem C69_tree_iterators (t : BpTree) (hf : Fits t.vec) (bs : Nat) (k : Lookup.Variant) (i : Nat) (fwd zero : Bool)
    (it : SelIter) (s : BpTree.SubIter) (o : Option Nat) :
    Ends (t.dfsPostNext bs k it) ∧ Ends (t.subtreeIter bs k i) ∧ Ends (t.subtreePostIter bs k i) ∧
      Ends (BpTree.takeNext t.vec zero s) ∧ Ends (t.subtreePostNext bs k s) ∧ Ends (t.childrenIter bs k fwd i) ∧
      Ends (t.childrenNext bs k fwd o) :=
  ⟨BpTree.dfsPostNext_ends hf bs k it, t.subtreeIter_ends bs k i, t.subtreePostIter_ends bs k i,
    BpTree.takeNext_ends hf zero s, BpTree.subtreePostNext_ends hf bs k s, t.childrenIter_ends bs k fwd i,
    t.childrenNext_ends bs k fwd o⟩

/-- C69: the select queries of the wavelet matrix. The loops of its other queries run over the levels and the calls of
rank in them contain no loop without a fixed bound. -/
theorem C69_wavelet (m : WM) (hf : ∀ rs ∈ m.data, Fits rs) (offset rank : Nat) (symbol : BV) (u : Word) :
    Ends (m.selectOffset offset rank symbol) ∧ Ends (m.selectOffsetU64 offset rank u) ∧
      Ends (m.select rank symbol) ∧ Ends (m.selectU64 rank u) := by
  have h1 := fun o => WM.selectGen_ends hf (WM.readBV_ends m.bitsPer symbol) o rank
  have h2 := fun o => WM.selectGen_ends hf (WM.readU64_ends m.bitsPer u) o rank
  refine ⟨?_, ?_, ?_, ?_⟩
  · unfold WM.selectOffset WM.selectOffsetUnchecked
    exact Ends.ite (fun _ => Ends.pure _) (fun _ => Ends.bind (h1 _) (fun _ _ => Ends.pure _))
  · unfold WM.selectOffsetU64 WM.selectOffsetU64Unchecked
    exact Ends.ite (fun _ => Ends.pure _) (fun _ => Ends.bind (h2 _) (fun _ _ => Ends.pure _))
  · unfold WM.select WM.selectUnchecked WM.selectOffsetUnchecked
    exact Ends.ite (fun _ => Ends.bind (h1 _) (fun _ _ => Ends.pure _)) (fun _ => Ends.pure _)
  · unfold WM.selectU64 WM.selectU64Unchecked WM.selectOffsetU64Unchecked
    exact Ends.ite (fun _ => Ends.pure _) (fun _ => Ends.bind (h2 _) (fun _ _ => Ends.pure _))

example := C69_wavelet ⟨[inconsistentVec, inconsistentVec]⟩
  (by intro rs h; rw [show rs = inconsistentVec by simpa using h]; exact ⟨by decide, by decide⟩) 3 100 ⟨[1#64], 2⟩ 1#64

/-- C69: access to the elements of an Elias-Fano vector. -/
theorem C69_elias_fano_get (ef : EF) (hf : Fits ef.upper) (i : Nat) : Ends (ef.get i) ∧ Ends (ef.delta i) :=
  ⟨EF.get_ends hf i, EF.delta_ends hf i⟩

example := C69_elias_fano_get ⟨inconsistentVec, ⟨[], 12⟩, 7#64, 3#64, 3, 4⟩ ⟨by decide, by decide⟩ 2

/-- C69: the iterator of an Elias-Fano vector, from every state. -/
theorem C69_elias_fano_iterator (ef : EF) (hf : Fits ef.upper) (it : EfIter) (op : IterOp) :
    Ends (EfIter.new ef) ∧ Ends (it.step ef op) ∧ Ends (it.last ef) :=
  ⟨EfIter.new_ends ef, EfIter.step_ends hf it op, EfIter.last_ends hf it⟩

/-- C69: predecessor and rank of an Elias-Fano vector. The budget of the binary search is large enough, and as it is not
stored anywhere in the source, it may depend on the content. The width of the lower half is less than 64 (otherwise the
shifts in the query panic or are taken modulo 64, which is not modelled) and the lower half takes less than 2^60 bytes. -/
theorem C69_predecessor_rank (ef : EF) (hf : Fits ef.upper) (hw : ef.lowerLen < 64) (hl : ef.lower.data.length < 2 ^ 57)
    (n : Word) : (∃ b, Ends (ef.predecessor n (binB := b))) ∧ ∃ b, Ends (ef.rank n (binB := b)) :=
  ⟨EF.predecessor_ends hf hw hl n, EF.rank_ends hf hw hl n⟩

example := C69_predecessor_rank ⟨inconsistentVec, ⟨[], 12⟩, 7#64, 3#64, 3, 4⟩ ⟨by decide, by decide⟩ (by decide) (by decide) 9#64

/-- C69, partially: the successor search ends in every debug build, and in release builds if the lower half of the first
element is 0. `from_slice` guarantees that, because it subtracts the first element from all of them; what is missing is a
release build with other contents, for which the claim is false (`C69_successor_defect`). -/
theorem C69_successor_partial (ef : EF) (hf : Fits ef.upper) (hw : ef.lowerLen < 64)
    (hl : ef.lower.data.length < 2 ^ 57) (h : Profile.debug = true ∨ ef.lowAt 0 = .ok 0#64) (n : Word) :
    ∃ b, Ends (ef.successor n (binB := b)) :=
  EF.successor_ends hf hw hl h n

example (hd : Profile.debug = true) := C69_successor_partial ⟨inconsistentVec, ⟨[], 12⟩, 7#64, 3#64, 3, 4⟩
  ⟨by decide, by decide⟩ (by decide) (by decide) (.inl hd) 9#64

/-- An Elias-Fano vector as `serde` accepts it: four elements 1, 2, 3, 4 with 3 bits each in the lower half, although the
first element should have been subtracted. The upper vector is a valid vector. -/
def spinningEF : R EF := do
  let u ← RsVec.fromBitVec ⟨[0b011110#64], 6⟩
  pure ⟨u, ⟨[0b100011010001#64], 12⟩, 0#64, 4#64, 3, 4⟩

/-- The loop of the binary search does not change its variables. -/
theorem binLoop_spins (hd : Profile.debug = false) (ef : EF) (ql m x : Word) (hx : ef.lowAt 0 = .ok x) (hne : x ≠ ql) :
    ∀ b lc, ef.binLoop false false ql m b 0 0 lc = .error .fuel
  | 0, _ => rfl
  | b + 1, lc => by
    have ih := binLoop_spins hd ef ql m x hx hne b
    unfold EF.binLoop
    have e1 : subR 0 1 = .ok (2 ^ 64 - 1) := by
      unfold subR; rw [if_neg (by omega), wrapR_release hd]; exact congrArg _ (by omega)
    rw [e1, ok_bind, if_pos (by omega), subR_of_le (Nat.le_refl 0), ok_bind]
    simp only [Nat.sub_self, Nat.zero_div, Nat.add_zero, hx, ok_bind, if_neg hne, ih, ite_self]


/-- The query of 0 gets to the binary search with both bounds 0 if the block of the smallest elements has exactly four of
them and none of their lower halves is 0. -/
theorem successor_reaches (ef : EF) (l0 l1 l2 l3 : Word) (hz : ef.zero = 0#64) (hl : ef.len ≠ 0)
    (s0 : ef.upper.select true 0 = .ok 0) (s1 : ef.upper.select true 1 = .ok 5)
    (b1 : ef.upper.getUnchecked 1 = .ok 1#64) (b2 : ef.upper.getUnchecked 2 = .ok 1#64)
    (b3 : ef.upper.getUnchecked 3 = .ok 1#64) (b4 : ef.upper.getUnchecked 4 = .ok 1#64)
    (h0 : ef.lowAt 0 = .ok l0) (h1 : ef.lowAt 1 = .ok l1) (h2 : ef.lowAt 2 = .ok l2) (h3 : ef.lowAt 3 = .ok l3)
    (n0 : l0 ≠ 0#64) (n1 : l1 ≠ 0#64) (n2 : l2 ≠ 0#64)
    (b : Nat) (p : Panic) (hp : ∀ m lc, ef.binLoop false false 0#64 m b 0 0 lc = .error p) :
    ef.successor 0#64 (binB := b) = .error p := by
  have e : subW 0#64 0#64 = .ok 0#64 := by unfold subW; rfl
  have d : ∀ (a c : Nat), c ≤ a → dirIdx false a c = .ok (a - c) := by
    intro a c h; unfold dirIdx; simp only [Bool.false_eq_true, if_false, if_pos h]
  have lt : ∀ x : Word, ¬ x < 0#64 := fun x h => by
    rw [BitVec.lt_def] at h; simp at h
  have gt : (1#64 : Word) > 0#64 := by decide
  unfold EF.successor EF.successorUnchecked
  rw [if_neg (by rw [gt_iff_lt]; exact fun h => h.elim (lt _) hl), if_neg (by rw [hz]; exact lt _), hz, e, ok_bind]
  simp only [BitVec.zero_ushiftRight, BitVec.toNat_zero, BitVec.zero_and, addU_of_lt (show 0 + 1 < 2 ^ 64 by omega),
    Nat.zero_add, s1, ok_bind, Nat.sub_zero, subR_of_le (Nat.zero_le _), subR_of_le (show 2 ≤ 5 by omega)]
  unfold EF.search
  simp only [d 5 1 (by omega), ok_bind, Nat.reduceSub, b4, if_pos gt, h3]
  rw [if_pos (by unfold EF.notYet; simp [BitVec.le_def])]
  unfold EF.linear
  simp only [d 5 2 (by omega), d 3 1 (by omega), ok_bind, Nat.reduceSub, Nat.reduceAdd, b3, if_pos gt, h2, lt,
    Bool.false_eq_true, false_and, and_false, or_self, if_false, n2]
  unfold EF.linear
  simp only [d 5 3 (by omega), d 3 2 (by omega), ok_bind, Nat.reduceSub, Nat.reduceAdd, b2, if_pos gt, h1, lt,
    Bool.false_eq_true, false_and, and_false, or_self, if_false, n1]
  unfold EF.linear
  simp only [d 5 4 (by omega), d 3 3 (by omega), ok_bind, Nat.reduceSub, Nat.reduceAdd, b1, if_pos gt, h0, lt,
    Bool.false_eq_true, false_and, and_false, or_self, if_false, n0]
  unfold EF.linear EF.binSearch EF.blockEnd
  simp only [d 3 3 (by omega), ok_bind, Nat.reduceSub, Bool.false_eq_true, if_false, s0, subR_of_le (Nat.zero_le _), hp]
  rfl

/-- C69 is false of the successor search in a release build: for the structure above, whose `get` works, the smallest value
that is not less than 0 is never found: `upper_bound - 1` wraps around in `while lower_bound < upper_bound - 1`, and no
budget suffices. A debug build panics. -/
theorem C69_successor_defect : ∃ ef, spinningEF = .ok ef ∧ Fits ef.upper ∧ ef.lowerLen < 64 ∧
    (∀ i < 4, ef.get i = .ok (some (BitVec.ofNat 64 (i + 1)))) ∧
    (Profile.debug = false → ∀ b, ef.successor 0#64 (binB := b) = .error .fuel) ∧
    (Profile.debug = true → ∀ b, ef.successor 0#64 (binB := b + 1) = .error .overflow) := by
  refine ⟨_, rfl, ⟨by decide +revert, by decide +revert⟩, by decide +revert, by decide +revert +kernel, ?_, ?_⟩
  · intro hd b
    exact successor_reaches _ 1#64 2#64 3#64 4#64 rfl (by decide +revert) (by decide +revert +kernel)
      (by decide +revert +kernel) (by decide +revert +kernel) (by decide +revert +kernel) (by decide +revert +kernel)
      (by decide +revert +kernel) (by decide +revert +kernel) (by decide +revert +kernel) (by decide +revert +kernel)
      (by decide +revert +kernel) (by decide) (by decide) (by decide) b _
      (fun m lc => binLoop_spins hd _ _ m 1#64 (by decide +revert +kernel) (by decide) b lc)
  · intro hd b
    refine successor_reaches _ 1#64 2#64 3#64 4#64 rfl (by decide +revert) (by decide +revert +kernel)
      (by decide +revert +kernel) (by decide +revert +kernel) (by decide +revert +kernel) (by decide +revert +kernel)
      (by decide +revert +kernel) (by decide +revert +kernel) (by decide +revert +kernel) (by decide +revert +kernel)
      (by decide +revert +kernel) (by decide) (by decide) (by decide) (b + 1) _ (fun m lc => ?_)
    unfold EF.binLoop
    rw [subR_overflow hd (by omega)]
    rfl

/-- The hypotheses are met by structures with nonsensical contents. -/
example : Fits inconsistentVec ∧ inconsistentVec.select true 100 = .error .oob ∧
    inconsistentVec.rank false 8999 = .error .oob := by
  refine ⟨⟨by decide, by decide⟩, ?_, ?_⟩ <;> decide +revert +kernel

/-- A tree over the inconsistent vector with an empty min-max tree: the search gives up, other calls panic. -/
example : (⟨inconsistentVec, ⟨[]⟩⟩ : BpTree).fwdSearch 512 .u8 0 0 = .error .oob := by
  decide +revert +kernel

/-- The hypotheses of `C69_successor_partial` in a release build are met by a vector that was built from elements. -/
example (fl : Nat → Nat) (h : fl = Nat.log2) : ∃ ef, EF.fromSlice fl [5#64, 6#64, 90#64, 91#64, 92#64, 93#64, 94#64] = .ok ef ∧
    Fits ef.upper ∧ ef.lowerLen = 4 ∧ ef.lower.data.length < 2 ^ 57 ∧ ef.lowAt 0 = .ok 0#64 := by
  subst h
  refine ⟨_, rfl, ⟨?_, ?_⟩, ?_, ?_, ?_⟩ <;> decide +revert +kernel

end Vers
