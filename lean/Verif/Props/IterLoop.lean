import Verif.Proofs.IterLoop
import Verif.Model.IterSize
import Verif.Props.GenIter
import Verif.Props.Wavelet
import Verif.Props.Sparse
import Verif.Props.BpTree

/-!
# Property C71: loops over the iterators, and their size

After any calls on an iterator that meet the conditions of C19, C20 and C26, `size_hint` and `count` are exact, a `for`
loop (or `collect`) sees exactly the remaining elements and ends, and a loop over the reversed iterator sees them
from the back. (`Spec.LoopsOver` and `Spec.ExactSize`, Verif/SpecLoop.lean.)

Also the parts of C20 and C27 on the wavelet matrix and on the sparse vector.
-/

namespace Vers

variable [Profile]
open Spec WM
open Lookup (Variant)

omit [Profile] in
theorem GenIter.exact {α : Type} {v : VecOps α} {l r : List α} {it : GenIter} (h : GenIter.Repr v l)
    (hr : GenIter.Rel l it r) : ExactSize it.sizeHint it.count r := by
  simp [ExactSize, GenIter.sizeHint, GenIter.count, GenIter.len_rel h hr]

omit [Profile] in
theorem GenIter.loops {α : Type} {v : VecOps α} {l r : List α} {it : GenIter} (h : GenIter.Repr v l)
    (hr : GenIter.Rel l it r) : LoopsOver (GenIter.next v) it r ∧ LoopsOver (GenIter.nextBack v) it r.reverse :=
  ⟨forLoop_of_sim (rel := GenIter.Rel l) (fun _ _ hr => GenIter.next_rel h hr) r it hr,
    forLoop_of_sim_back (rel := GenIter.Rel l) (fun _ _ hr => GenIter.nextBack_rel h hr) r it hr⟩

/-! ## C71 -/

/-- The iterators of the bit vector. -/
theorem C71_bit_vec {v : BV} (h : v.WF) (hl : v.len < 2 ^ 64) (ops : List IterOp)
    (hops : CallsOk NthInRange (v.bits.map b2w) ops) :
    ∃ it, reach (GenIter.step v.vecOps) (GenIter.new v.vecOps) ops = .ok it ∧
      ExactSize it.sizeHint it.count (iterRest (v.bits.map b2w) ops) ∧
      LoopsOver (GenIter.next v.vecOps) it (iterRest (v.bits.map b2w) ops) ∧
      LoopsOver (GenIter.nextBack v.vecOps) it (iterRest (v.bits.map b2w) ops).reverse := by
  have hr := vecOps_repr h hl
  obtain ⟨it, g1, g2⟩ := GenIter.reach_eq hr ops hops
  exact ⟨it, g1, GenIter.exact hr g2, GenIter.loops hr g2⟩

example := C71_bit_vec (v := BV.fromOnes 70) (by decide) (by decide) [.nthBack 3, .next, .nth 0]
  (by simp [CallsOk, iterStep, NthInRange, BV.fromOnes])

/-- The element iterators of the rank/select vector. -/
theorem C71_rs_vec {v : BV} (h : v.WF) (hl : v.len < 2 ^ 64) :
    ∃ rs, RsVec.fromBitVec v = .ok rs ∧ ∀ ops, CallsOk NthInRange (v.bits.map b2w) ops →
      ∃ it, reach (GenIter.step rs.vecOps) (GenIter.new rs.vecOps) ops = .ok it ∧
        ExactSize it.sizeHint it.count (iterRest (v.bits.map b2w) ops) ∧
        LoopsOver (GenIter.next rs.vecOps) it (iterRest (v.bits.map b2w) ops) ∧
        LoopsOver (GenIter.nextBack rs.vecOps) it (iterRest (v.bits.map b2w) ops).reverse := by
  obtain ⟨rs, h1, h2, h3, h4⟩ := fromBitVec_inv h
  refine ⟨rs, h1, fun ops hops => ?_⟩
  rw [vecOps_from h3 h4]
  exact C71_bit_vec h hl ops hops

example := C71_rs_vec (v := BV.fromOnes 70) (by decide) (by decide)

/-- The iterators over the positions of the ones (zeros), `iter1` and `iter0`. -/
theorem C71_select {v : BV} (h : v.WF) (zero : Bool) :
    ∃ rs it, RsVec.fromBitVec v = .ok rs ∧ SelIter.new rs zero = .ok it ∧
      ∀ ops : List IterOp, CallsOk (NthBackOk (positions (!zero) v.bits)) (positions (!zero) v.bits) ops →
        ∃ it', reach (SelIter.step rs zero) it ops = .ok it' ∧
          ExactSize it'.sizeHint it'.count (iterRest (positions (!zero) v.bits) ops) ∧
          LoopsOver (fun s => SelIter.next rs zero s) it' (iterRest (positions (!zero) v.bits) ops) ∧
          LoopsOver (fun s => SelIter.nextBack rs zero s) it' (iterRest (positions (!zero) v.bits) ops).reverse := by
  obtain ⟨rs, h1, h2, h3, h4⟩ := fromBitVec_inv h
  obtain ⟨it, i1, i2, -⟩ := SelIter.new_rel (zero := zero) h2
  have hs := SelIter.step_ok h2 (zero := zero)
  rw [bits_of_from h3 h4] at i2 hs
  refine ⟨rs, it, h1, i1, fun ops hops => ?_⟩
  obtain ⟨it', g1, g2⟩ := reach_of_sim (rel := SelIter.Rel rs zero) hs ops it _ i2 hops
  refine ⟨it', g1, ?_, ?_, ?_⟩
  · simp [ExactSize, SelIter.sizeHint, SelIter.count, SelIter.len_rel g2]
  · exact forLoop_of_sim (rel := SelIter.Rel rs zero) (fun _ _ hr => SelIter.next_rel h2 hr) _ _ g2
  · exact forLoop_of_sim_back (rel := SelIter.Rel rs zero) (fun _ _ hr => SelIter.nextBack_rel h2 hr) _ _ g2

example := C71_select (v := (BV.fromOnes 70).dropLast 3) (by decide) false

/-- The iterators of the Elias-Fano vector. -/
theorem C71_elias_fano {fl : Nat → Nat} (hfl : LogLike fl) {data : List Word} (hs : Sorted data)
    (hl : data.length < 2 ^ 60) :
    ∃ ef it, EF.fromSlice fl data = .ok ef ∧ EfIter.new ef = .ok it ∧
      ∀ ops, CallsOk NthInRange data ops → ∃ it', reach (EfIter.step ef) it ops = .ok it' ∧
        ExactSize it'.sizeHint it'.count (iterRest data ops) ∧
        LoopsOver (EfIter.next ef) it' (iterRest data ops) ∧
        LoopsOver (EfIter.nextBack ef) it' (iterRest data ops).reverse := by
  obtain ⟨ef, ps, e1, h, hz⟩ := fromSlice_holds hfl hs hl
  obtain ⟨it, i1, i2⟩ := EfIter.execute_eq h
  refine ⟨ef, it, e1, i1, fun ops hops => ?_⟩
  obtain ⟨_, it', g2, g3⟩ := i2 ops hops
  refine ⟨it', g2, ?_, ?_, ?_⟩
  · simp [ExactSize, EfIter.sizeHint, EfIter.count, EfIter.len_rel h g3]
  · exact forLoop_of_sim (rel := EfIter.Rel ef data ps) (fun _ _ hr => EfIter.next_rel h hr) _ _ g3
  · exact forLoop_of_sim_back (rel := EfIter.Rel ef data ps) (fun _ _ hr => EfIter.nextBack_rel h hr) _ _ g3

example := C71_elias_fano logLike_ceilLog2 (data := efExample) (by simp [Sorted, efExample]) (by decide)

/-- What C71 says of an iterator of the kind of C20 over the vector `v`, if the elements are those of `l`. -/
def Loops {α : Type} (v : VecOps α) (l : List α) : Prop :=
  ∀ ops, CallsOk NthInRange l ops → ∃ it, reach (GenIter.step v) (GenIter.new v) ops = .ok it ∧
    ExactSize it.sizeHint it.count (iterRest l ops) ∧
    LoopsOver (GenIter.next v) it (iterRest l ops) ∧
    LoopsOver (GenIter.nextBack v) it (iterRest l ops).reverse

theorem loops_of_repr {α : Type} {v : VecOps α} {l : List α} (h : GenIter.Repr v l) : Loops v l := by
  intro ops hops
  obtain ⟨it, g1, g2⟩ := GenIter.reach_eq h ops hops
  exact ⟨it, g1, GenIter.exact h g2, GenIter.loops h g2⟩

/-- The four iterators of the wavelet matrix: `iter`, `iter_sorted`, `iter_u64` and `iter_sorted_u64`. -/
theorem C71_wavelet {m : WM} {k : Nat} {vals : List Nat} (h : Built m k vals) (hn : vals.length < 2 ^ 64) :
    (∃ l : List BV, l.map BV.bits = vals.map (natToBits k) ∧ Loops m.valueOps l) ∧
    (∃ l : List BV, l.map BV.bits = (sorted vals).map (natToBits k) ∧ Loops m.sortedOps l) ∧
    (k ≤ 64 → ∃ l : List Word, l.map BitVec.toNat = vals ∧ m.iterU64 = some (GenIter.new m.numOps) ∧
      Loops m.numOps l) ∧
    (k ≤ 64 → ∃ l : List Word, l.map BitVec.toNat = sorted vals ∧
      m.iterSortedU64 = some (GenIter.new m.sortedNumOps) ∧ Loops m.sortedNumOps l) := by
  have hs := built_stores h
  refine ⟨?_, ?_, fun hk => ?_, fun hk => ?_⟩
  · obtain ⟨l, l1, l2, l3⟩ := reprValue hs hn
    exact ⟨l, l2, loops_of_repr l1⟩
  · obtain ⟨l, l1, l2, l3⟩ := reprSorted hs hn
    exact ⟨l, l2, loops_of_repr l1⟩
  · obtain ⟨l, l1, l2⟩ := reprNum hs hk hn
    exact ⟨l, l2, by unfold iterU64; rw [hs.bp, if_neg (by omega)], loops_of_repr l1⟩
  · obtain ⟨l, l1, l2⟩ := reprSortedNum hs hk hn
    exact ⟨l, l2, by unfold iterSortedU64; rw [hs.bp, if_neg (by omega)], loops_of_repr l1⟩

example : ∃ m, Built m 3 [5, 1, 7, 1] := by
  obtain ⟨m, _, h⟩ := C31_from_slice (k := 3) (by decide) (by decide) [5#64, 1#64, 7#64, 1#64]
  exact ⟨m, h⟩

/-- Loops over the iterators of the tree that work for all block sizes: preorder, the subtree in preorder, and the
children from left to right. -/
theorem C71_tree {v : BV} (hw : v.WF) {f : Forest} (hf : v.bits = parens f) {bs : Nat} (hbs : 0 < bs)
    (hl : v.len ≤ 9223372036854775806) :
    ∃ t, BpTree.fromBitVector bs v = .ok t ∧
      (∃ it, t.dfsIter = .ok it ∧ LoopsOver (SelIter.next t.vec false) it (preorder 0 f)) ∧
      ∀ (k : Variant), ∀ n ∈ nodes f,
        (∃ s, t.subtreeIter bs k n.handle = .ok s ∧
          LoopsOver t.subtreeNext s ((preorder 0 f).filter (inSubtree f n))) ∧
        ∃ s, t.childrenIter bs k true n.handle = .ok s ∧ LoopsOver (t.childrenNext bs k true) s n.children := by
  obtain ⟨t, h1, ⟨it, h2, h3⟩, h4⟩ := C45_preorder hw hf hbs hl
  obtain ⟨t', h1', -, -, h5⟩ := C42_forward hw hf hbs hl
  rw [h1] at h1'
  cases h1'
  refine ⟨t, h1, ⟨it, h2, loopsOver_of_yields h3⟩, fun k n hn => ⟨?_, ?_⟩⟩
  · obtain ⟨s, s1, s2⟩ := h4 k n hn
    exact ⟨s, s1, loopsOver_of_yields s2⟩
  · obtain ⟨-, -, -, s, s1, s2⟩ := h5 k n hn
    exact ⟨s, s1, loopsOver_of_yields s2⟩

example := C71_tree (v := exVec) (by decide) (f := exForest) (by decide) (bs := 24) (by decide) (by decide)

/-- Loops over the other iterators of the tree, for the block sizes of C45: postorder, the subtree in postorder, and the
children from right to left. -/
theorem C71_tree_partial {v : BV} (hw : v.WF) {f : Forest} (hf : v.bits = parens f) {bs : Nat} (hbs : 0 < bs)
    (hl : v.len ≤ 9223372036854775805) :
    ∃ t, BpTree.fromBitVector bs v = .ok t ∧ ∀ (k : Variant), (k.size ∣ bs ∨ bs ∣ k.size) →
      (∃ s, t.dfsPostIter = .ok s ∧ LoopsOver (t.dfsPostNext bs k) s (postorder 0 f)) ∧
      ∀ n ∈ nodes f,
        (∃ s, t.subtreePostIter bs k n.handle = .ok s ∧
          LoopsOver (t.subtreePostNext bs k) s ((postorder 0 f).filter (inSubtree f n))) ∧
        ∃ s, t.childrenIter bs k false n.handle = .ok s ∧
          LoopsOver (t.childrenNext bs k false) s n.children.reverse := by
  obtain ⟨t, h1, h2⟩ := C45_postorder_partial hw hf hbs (by omega)
  obtain ⟨t', h1', h3⟩ := C42_backward_partial hw hf hbs hl
  rw [h1] at h1'
  cases h1'
  refine ⟨t, h1, fun k hk => ⟨?_, fun n hn => ⟨?_, ?_⟩⟩⟩
  · obtain ⟨s, s1, s2⟩ := (h2 k hk).1
    exact ⟨s, s1, loopsOver_of_yields s2⟩
  · obtain ⟨s, s1, s2⟩ := (h2 k hk).2 n hn
    exact ⟨s, s1, loopsOver_of_yields s2⟩
  · obtain ⟨-, -, -, s, s1, s2⟩ := h3 k hk n hn
    exact ⟨s, s1, loopsOver_of_yields s2⟩

example := C71_tree_partial (v := exVec) (by decide) (f := exForest) (by decide) (bs := 512) (by decide) (by decide)

/-! ## C20: the wavelet matrix -/

/-- What C20 says of the iterator over the vector `v`, if the elements are those of `l`: all sequences of calls with
arguments of `nth` and `nth_back` not above the number of remaining elements, and `last`. -/
def Cursor {α : Type} (v : VecOps α) (l : List α) : Prop :=
  ∀ ops, CallsOk NthInRange l ops →
    execute (GenIter.step v) (GenIter.new v) ops = .ok (iterRun l ops) ∧
    ∃ it, reach (GenIter.step v) (GenIter.new v) ops = .ok it ∧ it.last v = .ok (iterRest l ops).getLast?

theorem cursor_of_repr {α : Type} {v : VecOps α} {l : List α} (h : GenIter.Repr v l) : Cursor v l := by
  intro ops hops
  obtain ⟨it, g1, g2⟩ := GenIter.reach_eq h ops hops
  exact ⟨GenIter.execute_eq h ops hops, it, g1, GenIter.last_rel h g2⟩

/-- What the defect of C20 is: `nth` and `nth_back` beyond the remaining elements leave the iterator as it is. -/
def Keeps {α : Type} (v : VecOps α) (l : List α) : Prop :=
  ∀ ops, CallsOk NthInRange l ops → ∃ it, reach (GenIter.step v) (GenIter.new v) ops = .ok it ∧
    ∀ n, (iterRest l ops).length < n →
      (l.length + n < 2 ^ 64 → it.nth v n = .ok (it, none)) ∧ it.nthBack v n = .ok (it, none)

theorem keeps_of_repr {α : Type} {v : VecOps α} {l : List α} (h : GenIter.Repr v l) : Keeps v l := by
  intro ops hops
  obtain ⟨it, g1, g2⟩ := GenIter.reach_eq h ops hops
  exact ⟨it, g1, fun n hn => ⟨fun hov => GenIter.nth_beyond h g2 hn (by
    have := g2.le; have := g2.hi; omega), GenIter.nthBack_beyond g2 hn⟩⟩

/-- Partial: the same restriction as for `C20_bit_vec_partial`. The four iterators of the wavelet matrix. -/
theorem C20_wavelet_partial {m : WM} {k : Nat} {vals : List Nat} (h : Built m k vals) (hn : vals.length < 2 ^ 64) :
    (∃ l : List BV, l.map BV.bits = vals.map (natToBits k) ∧ Cursor m.valueOps l) ∧
    (∃ l : List BV, l.map BV.bits = (sorted vals).map (natToBits k) ∧ Cursor m.sortedOps l) ∧
    (k ≤ 64 → ∃ l : List Word, l.map BitVec.toNat = vals ∧ Cursor m.numOps l) ∧
    (k ≤ 64 → ∃ l : List Word, l.map BitVec.toNat = sorted vals ∧ Cursor m.sortedNumOps l) := by
  have hs := built_stores h
  refine ⟨?_, ?_, fun hk => ?_, fun hk => ?_⟩
  · obtain ⟨l, l1, l2, l3⟩ := reprValue hs hn
    exact ⟨l, l2, cursor_of_repr l1⟩
  · obtain ⟨l, l1, l2, l3⟩ := reprSorted hs hn
    exact ⟨l, l2, cursor_of_repr l1⟩
  · obtain ⟨l, l1, l2⟩ := reprNum hs hk hn
    exact ⟨l, l2, cursor_of_repr l1⟩
  · obtain ⟨l, l1, l2⟩ := reprSortedNum hs hk hn
    exact ⟨l, l2, cursor_of_repr l1⟩

/-- Defect: `nth(n)` and `nth_back(n)` of the four iterators with `n` above the number of remaining elements return
`None` but do not consume the remaining elements. -/
theorem C20_wavelet_nth_defect {m : WM} {k : Nat} {vals : List Nat} (h : Built m k vals)
    (hn : vals.length < 2 ^ 64) :
    (∃ l : List BV, l.map BV.bits = vals.map (natToBits k) ∧ Keeps m.valueOps l) ∧
    (∃ l : List BV, l.map BV.bits = (sorted vals).map (natToBits k) ∧ Keeps m.sortedOps l) ∧
    (k ≤ 64 → ∃ l : List Word, l.map BitVec.toNat = vals ∧ Keeps m.numOps l) ∧
    (k ≤ 64 → ∃ l : List Word, l.map BitVec.toNat = sorted vals ∧ Keeps m.sortedNumOps l) := by
  have hs := built_stores h
  refine ⟨?_, ?_, fun hk => ?_, fun hk => ?_⟩
  · obtain ⟨l, l1, l2, l3⟩ := reprValue hs hn
    exact ⟨l, l2, keeps_of_repr l1⟩
  · obtain ⟨l, l1, l2, l3⟩ := reprSorted hs hn
    exact ⟨l, l2, keeps_of_repr l1⟩
  · obtain ⟨l, l1, l2⟩ := reprNum hs hk hn
    exact ⟨l, l2, keeps_of_repr l1⟩
  · obtain ⟨l, l1, l2⟩ := reprSortedNum hs hk hn
    exact ⟨l, l2, keeps_of_repr l1⟩

/-- The hypotheses of the theorems on the wavelet matrix, for `[5, 1, 7, 1]`, and what they say of `last` after `next`. -/
example : ∃ m, fromSlice [5#64, 1#64, 7#64, 1#64] 3 = .ok m ∧
    ∃ it, reach (GenIter.step m.numOps) (GenIter.new m.numOps) [.next, .nextBack] = .ok it ∧
      it.last m.numOps = .ok (some 7#64) := by
  obtain ⟨m, m1, m2⟩ := C31_from_slice (k := 3) (by decide) (by decide) [5#64, 1#64, 7#64, 1#64]
  obtain ⟨l, l1, l2⟩ := (C20_wavelet_partial m2 (by decide)).2.2.1 (by omega)
  have : l = [5#64, 1#64, 7#64, 1#64] := by
    apply List.map_inj_right (f := BitVec.toNat) (fun a b h => BitVec.eq_of_toNat_eq h) |>.mp
    rw [l1]; rfl
  subst this
  exact ⟨m, m1, (l2 [.next, .nextBack] (by simp [CallsOk, NthInRange])).2⟩

/-! ## C27: the iterator of the sparse vector -/

/-- `iter1` yields the positions: all sequences of calls as in `C26_iter_partial`, `size_hint` and `count`, and loops. -/
theorem C27_iter1 {fl : Nat → Nat} (hfl : LogLike fl) {input : List Word} {len : Word}
    (hs : input.Pairwise (· < ·)) (hb : ∀ x, x ∈ input → x < len) (hn : input.length < 2 ^ 60) :
    ∃ s it, Sparse.new fl input len = .ok s ∧ s.iter1 = .ok it ∧
      ∀ ops, CallsOk NthInRange input ops →
        execute (EfIter.step s.vec) it ops = .ok (iterRun input ops) ∧
        ∃ it', reach (EfIter.step s.vec) it ops = .ok it' ∧
          ExactSize it'.sizeHint it'.count (iterRest input ops) ∧
          LoopsOver (EfIter.next s.vec) it' (iterRest input ops) ∧
          LoopsOver (EfIter.nextBack s.vec) it' (iterRest input ops).reverse := by
  have hsort : Sorted input := hs.imp (fun {a b} hab => by rw [BitVec.lt_def] at hab; rw [BitVec.le_def]; omega)
  obtain ⟨s, h1, -⟩ := C27_new hfl hs hb hn
  obtain ⟨ef, it, e1, e2, e3⟩ := C26_iter_partial hfl hsort hn
  obtain ⟨ef', it', e1', e2', e4⟩ := C71_elias_fano hfl hsort hn
  rw [e1] at e1'
  cases e1'
  rw [e2] at e2'
  cases e2'
  have hv : s.vec = ef := by
    unfold Sparse.new at h1
    obtain ⟨_, _, h1⟩ := bind_eq_ok.mp h1
    obtain ⟨_, _, h1⟩ := bind_eq_ok.mp h1
    obtain ⟨ef', g, h1⟩ := bind_eq_ok.mp h1
    rw [e1] at g
    cases g
    cases h1
    rfl
  subst hv
  exact ⟨s, it, h1, e2, fun ops hops => ⟨(e3 ops hops).1, e4 ops hops⟩⟩

example := C27_iter1 logLike_ceilLog2 (input := [3#64, 17#64, 40#64]) (len := 50#64) (by decide) (by simp) (by decide)

end Vers
