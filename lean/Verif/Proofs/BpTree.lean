import Verif.Proofs.Match
import Verif.Proofs.IterSim
import Verif.Proofs.Sparse
import Verif.Props.RsVec

set_option linter.unusedSimpArgs false

/-! # The queries of the parenthesis tree on the sequence of a forest -/

namespace Vers

variable [Profile]
open Spec Lookup
namespace BpTree

/-- The rank/select vector of the tree stores `v`. -/
structure VRep (t : BpTree) (v : BV) : Prop where
  vec : VecOk t.vec v
  inv : t.vec.Inv

variable {t : BpTree} {v : BV} {bs : Nat} {k : Variant}

omit [Profile] in
theorem Rep.vrep (h : Rep t bs v) : VRep t v := ⟨h.vec, h.inv⟩

theorem fromBitVector_total {v : BV} (hw : v.WF) {bs : Nat} (hbs : 0 < bs) (hl : v.len ≤ 9223372036854775807) :
    ∃ t, fromBitVector bs v = .ok t ∧ VRep t v ∧ (0 < v.len → Rep t bs v) := by
  by_cases h0 : 0 < v.len
  · obtain ⟨t, h1, h2⟩ := fromBitVector_rep hw hbs h0 hl
    exact ⟨t, h1, h2.vrep, fun _ => h2⟩
  · obtain ⟨rs, g1, g2, g3, g4⟩ := fromBitVec_inv hw
    refine ⟨⟨rs, ⟨[]⟩⟩, ?_, ⟨⟨hw, g3, g4⟩, g2⟩, fun h => absurd h h0⟩
    unfold fromBitVector MMT.excessTree
    have : v.isEmpty = true := by
      unfold BV.isEmpty; simp; omega
    rw [if_pos this, pure_eq_ok, ok_bind, g1, ok_bind]; rfl

omit [Profile] in
theorem VRep.bits (h : VRep t v) : t.vec.intoBitVec = v := bits_of_from h.vec.2.1 h.vec.2.2

omit [Profile] in
theorem VRep.get (h : VRep t v) (i : Nat) : t.vec.get i = .ok (v.bits[i]?.map b2w) := by
  unfold RsVec.get
  rw [h.vec.2.2]
  by_cases hi : i < v.len
  · obtain ⟨x, hx⟩ := exists_bit hi
    rw [if_neg (by omega), getUnchecked_eq h.vec hx, ok_bind, hx]; rfl
  · rw [if_pos (by omega), List.getElem?_eq_none (by rw [BV.length_bits]; omega)]; rfl

omit [Profile] in
theorem map_b2w_one (o : Option Bool) : o.map b2w = some 1#64 ↔ o = some true := by
  rcases o with - | - | - <;> simp [b2w]

omit [Profile] in
theorem map_b2w_zero (o : Option Bool) : o.map b2w = some 0#64 ↔ o = some false := by
  rcases o with - | - | - <;> simp [b2w]

theorem VRep.assertNode (h : VRep t v) {i : Nat} (hi : v.bits[i]? = some true) : t.assertNode i = .ok () := by
  unfold BpTree.assertNode
  split
  · rw [h.get, ok_bind, hi]; rfl
  · rfl

theorem VRep.rank (h : VRep t v) (zero : Bool) (i : Nat) : t.vec.rank zero i = .ok (Spec.rank (!zero) v.bits i) := by
  rw [RsVec.rank_eq h.inv]
  congr 1
  unfold Spec.rank
  rw [h.vec.2.1, h.vec.2.2]
  by_cases hi : i ≤ v.len
  · rw [Nat.min_eq_left hi, BV.count_take_bits v _ i hi]; rfl
  · rw [Nat.min_eq_right (by omega), List.take_of_length_le (by simp; omega), BV.count_bits_eq_cnt]; rfl

theorem VRep.select (h : VRep t v) (zero : Bool) (r : Nat) :
    t.vec.select zero r = .ok ((positions (!zero) v.bits)[r]?.getD v.len) := by
  have hc : v.bits.count (!zero) = C t.vec.data (!zero) t.vec.len := by
    rw [BV.count_bits_eq_cnt, h.vec.2.1, h.vec.2.2]; rfl
  by_cases hr : r < v.bits.count (!zero)
  · obtain ⟨p, p1, p2, p3⟩ := RsVec.select_eq h.inv zero (by rw [← hc]; exact hr)
    have := SelIter.isSelect_of_isPos p2 p3
    rw [h.bits] at this
    rw [p1, positions_getElem? this]; rfl
  · rw [RsVec.select_ge h.inv zero (by rw [← hc]; omega), h.vec.2.2,
      List.getElem?_eq_none (by rw [length_positions]; omega)]; rfl

/-! ## The searches at nodes -/

omit [Profile] in
theorem Rep.len_pos {i : Nat} {x : Bool} (hi : v.bits[i]? = some x) : i < v.len := by
  have := (List.getElem?_eq_some_iff.mp hi).1
  rwa [BV.length_bits] at this

theorem close_eq (h : Rep t bs v) (k : Variant) {i : Nat} (hi : i < v.len) (hl : v.len ≤ 9223372036854775806) :
    t.close bs k i = .ok ((firstExc (v.bits.drop (i + 1)) (-1)).map (i + 1 + ·)) := by
  unfold close
  rw [h.vec.2.2, if_neg (by omega), fwdSearch_eq h k i (by omega) (by omega)]

theorem opening_eq (h : Rep t bs v) (hfit : BwdFits bs k) {i : Nat} (hi : i < v.len) (hl : v.len ≤ 9223372036854775806) :
    t.opening bs k i = .ok ((firstExc (v.bits.take i).reverse 1).map (i - 1 - ·)) := by
  unfold opening
  rw [h.vec.2.2, if_neg (by omega), bwdSearch_eq h hfit hi (by omega)]; rfl

theorem enclose_eq (h : Rep t bs v) (hfit : BwdFits bs k) {i : Nat} {x : Bool} (hi : v.bits[i]? = some x)
    (hl : v.len ≤ 9223372036854775805) :
    t.enclose bs k i =
      .ok ((firstExc (v.bits.take i).reverse (-(if x = true then -1 else -2))).map (i - 1 - ·)) := by
  have hil := Rep.len_pos hi
  unfold enclose
  rw [h.vec.2.2, if_neg (by omega), getUnchecked_eq h.vec hi, ok_bind]
  have e : (if b2w x = 1#64 then (-1 : Int) else -2) = if x = true then -1 else -2 := by cases x <;> rfl
  rw [e, bwdSearch_eq h hfit hil (by split <;> omega)]

section
variable {n : Node} {pre : List Bool} {c s : Forest} {post : List Bool}

theorem close_node (h : Rep t bs v) (k : Variant) (hl : v.len ≤ 9223372036854775806) (ha : Around v.bits n pre c s post) :
    t.close bs k n.handle = .ok (some n.close) := by
  rw [close_eq h k (Rep.len_pos ha.open_bit) hl, ha.fwd_close]

theorem opening_node (h : Rep t bs v) (hfit : BwdFits bs k) (hl : v.len ≤ 9223372036854775806)
    (ha : Around v.bits n pre c s post) : t.opening bs k n.close = .ok (some n.handle) := by
  rw [opening_eq h hfit (Rep.len_pos ha.close_bit) hl, ha.bwd_open]

theorem parent_node (h : Rep t bs v) (hfit : BwdFits bs k) (hl : v.len ≤ 9223372036854775805)
    (ha : Around v.bits n pre c s post) : t.parent bs k n.handle = .ok n.ancestors[0]? := by
  unfold parent
  rw [h.vrep.assertNode ha.open_bit, ok_bind, enclose_eq h hfit ha.open_bit hl, if_pos rfl]
  have := ha.bwd_anc 0
  rw [show -(-1 : Int) = ((0 : Nat) : Int) + 1 from rfl, this]

theorem firstChild_node (h : VRep t v) (hl : v.len ≤ 9223372036854775807) (ha : Around v.bits n pre c s post) :
    t.firstChild n.handle = .ok n.children.head? := by
  have hlt := Rep.len_pos ha.open_bit
  unfold firstChild
  rw [h.assertNode ha.open_bit, ok_bind, addU_of_lt (by omega), ok_bind, h.get, ok_bind, ha.first_child, pure_eq_ok]
  simp only [map_b2w_one]

theorem isLeaf_node (h : VRep t v) (hl : v.len ≤ 9223372036854775807) (ha : Around v.bits n pre c s post) :
    t.isLeaf n.handle = .ok (decide (n.children = [])) := by
  have hlt := Rep.len_pos ha.open_bit
  unfold isLeaf
  rw [h.assertNode ha.open_bit, ok_bind, addU_of_lt (by omega), ok_bind, h.get, ok_bind, pure_eq_ok]
  simp only [map_b2w_zero, ha.isLeaf]

theorem nextSibling_node (h : Rep t bs v) (k : Variant) (hl : v.len ≤ 9223372036854775806)
    (ha : Around v.bits n pre c s post) : t.nextSibling bs k n.handle = .ok n.after.head? := by
  unfold nextSibling
  rw [h.vrep.assertNode ha.open_bit, ok_bind, close_node h k hl ha, ok_bind]
  simp only []
  rw [h.vrep.get, ok_bind, ha.next_sibling, pure_eq_ok]
  simp only [map_b2w_one]

theorem previousSibling_node (h : Rep t bs v) (hfit : BwdFits bs k) (hl : v.len ≤ 9223372036854775806)
    (ha : Around v.bits n pre c s post) : t.previousSibling bs k n.handle = .ok n.before.head? := by
  obtain ⟨h1, h2, h3⟩ := ha.prev_sibling
  have hlt := Rep.len_pos ha.open_bit
  unfold previousSibling
  rw [h.vrep.assertNode ha.open_bit, ok_bind]
  by_cases h0 : n.handle = 0
  · rw [if_pos h0, h1 h0]; rfl
  · rw [if_neg h0, h.vrep.get, ok_bind]
    simp only [map_b2w_zero]
    obtain ⟨x, hx⟩ := exists_bit (v := v) (i := n.handle - 1) (by omega)
    cases x with
    | true =>
      rw [hx, if_neg (by simp), h2 (by omega) hx]; rfl
    | false =>
      rw [hx, if_pos rfl, opening_eq h hfit (by omega) hl, h3 (by omega) hx]

theorem lastChild_node (h : Rep t bs v) (hfit : BwdFits bs k) (hl : v.len ≤ 9223372036854775806)
    (ha : Around v.bits n pre c s post) : t.lastChild bs k n.handle = .ok n.children.getLast? := by
  have hlt := Rep.len_pos ha.open_bit
  unfold lastChild
  rw [h.vrep.assertNode ha.open_bit, ok_bind, addU_of_lt (by omega), ok_bind, h.vrep.get, ok_bind]
  simp only [map_b2w_one]
  have h1 := ha.handle_lt_close
  have h2 := Rep.len_pos ha.close_bit
  have hf := ha.first_child
  by_cases hc : n.children = []
  · rw [hc] at hf ⊢
    rw [if_neg]
    · rfl
    · intro hh; rw [if_pos hh] at hf; simp at hf
  · rw [if_pos, close_node h k hl ha, ok_bind]
    · simp only []
      rw [subR_of_le (by omega), ok_bind, opening_eq h hfit (by omega) hl, (ha.last_child hc).2]
    · apply Classical.byContradiction
      intro hh
      rw [if_neg hh] at hf
      exact hc (List.head?_eq_none_iff.mp hf)

/-! ## Depth and subtrees -/

omit [Profile] in
theorem rank_sub (b : List Bool) (i : Nat) : ((Spec.rank true b i : Nat) : Int) - (Spec.rank false b i : Nat) = Spec.excess (b.take i) := rfl

theorem excess_eq (h : VRep t v) {i : Nat} (hi : i < v.len) (hl : v.len ≤ 9223372036854775806) :
    t.excess i = .ok (Spec.excess (v.bits.take (i + 1))) := by
  unfold excess
  rw [h.vec.2.2, dassertR_true hi, ok_bind, addU_of_lt (by omega), ok_bind, h.rank, ok_bind, h.rank, ok_bind]
  have hb := excess_natAbs_le (v.bits.take (i + 1))
  rw [List.length_take, BV.length_bits] at hb
  have e := rank_sub v.bits (i + 1)
  unfold subI
  rw [Bool.not_false, Bool.not_true, e, if_pos (by omega)]

theorem depth_node (h : VRep t v) (hl : v.len ≤ 9223372036854775806) (ha : Around v.bits n pre c s post) :
    t.depth n.handle = .ok n.depth := by
  unfold depth
  rw [h.assertNode ha.open_bit, ok_bind, excess_eq h (Rep.len_pos ha.open_bit) hl, ok_bind, List.take_add_one, ha.open_bit,
    Option.toList_some, excess_append, excess_singleton, ha.depth, pure_eq_ok]
  simp [sgn]

theorem subtreeSize_node (h : Rep t bs v) (k : Variant) (hl : v.len ≤ 9223372036854775806)
    (ha : Around v.bits n pre c s post) : t.subtreeSize bs k n.handle = .ok (some n.size) := by
  unfold subtreeSize
  rw [h.vrep.assertNode ha.open_bit, ok_bind, close_node h k hl ha, ok_bind]
  simp only []
  rw [h.vrep.rank, ok_bind, h.vrep.rank, ok_bind]
  unfold Spec.rank
  rw [ha.take_close, ha.take_handle, List.count_append, Bool.not_false, List.count_cons_self, count_true_parens,
    subR_of_le (by omega), ok_bind, ha.size, pure_eq_ok]
  congr 2; omega

theorem isAncestor_eq (h : Rep t bs v) (k : Variant) (hl : v.len ≤ 9223372036854775806)
    (ha : Around v.bits n pre c s post) {d : Nat} (hd : v.bits[d]? = some true) :
    t.isAncestor bs k n.handle d = .ok (some (decide (n.handle ≤ d ∧ d < n.close))) := by
  unfold isAncestor
  rw [h.vrep.assertNode ha.open_bit, ok_bind, h.vrep.assertNode hd, ok_bind, close_node h k hl ha, ok_bind]; rfl

theorem levelAncestor_node (h : Rep t bs v) (hfit : BwdFits bs k) (ha : Around v.bits n pre c s post) {level : Word}
    (hlev : level.toNat + v.len ≤ 9223372036854775807) :
    t.levelAncestor bs k n.handle level = .ok (n.handle :: n.ancestors)[level.toNat]? := by
  unfold levelAncestor
  by_cases h0 : level = 0#64
  · rw [if_pos h0, h0]; rfl
  · have h1 : level.toNat ≠ 0 := fun hc => h0 (BitVec.eq_of_toNat_eq (by simpa using hc))
    have hi : asI64 level = level.toNat := by
      unfold asI64
      rw [BitVec.toInt_eq_toNat_cond, if_pos (by omega)]
    rw [if_neg h0, hi]
    have e : subI 0 (level.toNat : Int) = .ok (-(level.toNat : Int)) := by
      unfold subI; rw [if_pos (by omega)]; congr 1; omega
    rw [e, ok_bind, bwdSearch_eq h hfit (Rep.len_pos ha.open_bit) (by omega)]
    have := ha.bwd_anc (level.toNat - 1)
    rw [show ((level.toNat - 1 : Nat) : Int) + 1 = - -(level.toNat : Int) by omega] at this
    rw [this]
    conv => rhs; rw [show level.toNat = (level.toNat - 1) + 1 by omega, List.getElem?_cons_succ]

end
end BpTree
end Vers
