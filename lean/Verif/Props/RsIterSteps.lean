import Verif.Proofs.RsIterSteps
import Verif.Props.Time

/-! # Property C75: the number of steps of the select iterators

`SelIter.nextC` is `next` with a counter for the accesses to the select blocks, super blocks and blocks
(`Model/RsIterSteps.lean`), `SelIter.callsC rs zero n it` a loop of `n` calls. The claim is that the iterators exploit the
linear access pattern: a loop over all positions takes time linear in their number and in the number of super blocks. -/

set_option linter.unusedSimpArgs false

namespace Vers

variable [Profile]
open RsVec Spec SelIter

/-- The step counter does not change the result, for every structure and iterator. -/
theorem C75_counter (rs : RsVec) (zero : Bool) (it : SelIter) : (nextC rs zero it).result = it.next rs zero :=
  nextC_result it

example : (do
    let rs ← RsVec.fromBitVec ⟨[0b1011#64], 4⟩
    let it ← SelIter.new rs false
    (callsC rs false 4 it).result) = .ok [some 0, some 1, some 3, none] := by decide +revert +kernel

/-- A call of `next` takes at most 6 steps if its result `p'` is in the same super block (of 8192 bits) as the result `p`
of the call before, unless this is the last super block of the vector. Missing for the full property: see
`C75_last_super_block_defect`. -/
theorem C75_step_partial {v : BV} (h : v.WF) (zero : Bool) :
    ∃ rs it, RsVec.fromBitVec v = .ok rs ∧ SelIter.new rs zero = .ok it ∧ ∀ n p p',
      (positions (!zero) v.bits)[n]? = some p → (positions (!zero) v.bits)[n + 1]? = some p' →
      p' / 8192 = p / 8192 → p / 8192 < (v.len - 1) / 8192 →
      (callsC rs zero (n + 2) it).steps ≤ (callsC rs zero (n + 1) it).steps + 6 := by
  obtain ⟨rs, h1, h2, h3, h4⟩ := fromBitVec_inv h
  obtain ⟨it, i1, i2, i3, -, i5⟩ := SelIter.new_state (zero := zero) h2
  refine ⟨rs, it, h1, i1, fun n p p' hp hp' hs hl => ?_⟩
  rw [← bits_of_from h3 h4] at hp hp'
  obtain ⟨p1, p2⟩ := isPos_of_positions h2 hp
  obtain ⟨q1, q2⟩ := isPos_of_positions h2 hp'
  have hc : n + 1 < C rs.data (!zero) rs.len := by
    rw [← length_positions_eq]
    exact (List.getElem?_eq_some_iff.mp hp').1
  obtain ⟨it', j1, j2, j3, j4, j5⟩ := callsC_snoc h2 (n + 1) it i2 _ (i5 (by omega)) (by omega)
  obtain ⟨it2, p'', c1, c2, c3, c4, c5, c6, c7, -⟩ := nextC_cost h2 j1 j2 (by omega)
  have hsup : it'.lastSuper = p / 8192 := by
    rcases j4 with ⟨-, j4⟩ | ⟨j4, -⟩
    · rw [show it.nextRank + (n + 1) - 1 = n by omega] at j4
      exact j4.unique zero (isSuper_of_pos h2 p1 p2)
    · omega
  have hnm : ¬Miss rs zero it' := by
    intro hm
    have hwf := h2.wf
    have hsl := h2.slen
    unfold Miss at hm
    rw [hsup, j3, i3, Nat.zero_add] at hm
    have hq := isSuper_of_pos h2 q1 q2
    rw [hs] at hq
    have hlen : p / 8192 + 1 < rs.supers.length := by rw [← h4] at hl; omega
    have := hq.2.2 hlen
    have := hm hlen
    omega
  have := (c7 hnm).2
  rw [show n + 2 = n + 1 + 1 from rfl, j5]
  omega

/-- 20000 ones: all results but the first of a super block and those of the last super block are found in 6 steps. -/
example := C75_step_partial (v := BV.fromOnes 20000) (BV.wf_fromOnes 20000) false

/-- A loop over all positions yields them in order. Besides 6 steps for each, it takes a number of steps that is linear in
the length of the vector in bits. Missing for the full property: for vectors with few positions this is linear in the
number of bits instead of the number of super blocks, and it cannot be improved, see `C75_last_super_block_defect`. -/
theorem C75_loop_partial {v : BV} (h : v.WF) (zero : Bool) :
    ∃ rs it, RsVec.fromBitVec v = .ok rs ∧ SelIter.new rs zero = .ok it ∧
      (callsC rs zero (v.bits.count (!zero)) it).result = .ok ((positions (!zero) v.bits).map some) ∧
      (callsC rs zero (v.bits.count (!zero)) it).steps ≤
        6 * v.bits.count (!zero) + v.len + Nat.log2 (v.len / 8192 + 1) * (v.len / 8192 + 8192) := by
  obtain ⟨rs, h1, h2, h3, h4⟩ := fromBitVec_inv h
  obtain ⟨it, i1, i2, i3, i4, i5⟩ := SelIter.new_state (zero := zero) h2
  refine ⟨rs, it, h1, i1, ?_⟩
  have e := bits_of_from h3 h4
  have hcount : v.bits.count (!zero) = C rs.data (!zero) rs.len := by
    rw [← e, ← length_positions, length_positions_eq]
  rw [hcount, ← e]
  by_cases h0 : 0 < C rs.data (!zero) rs.len
  · obtain ⟨c1, c2⟩ := callsC_cost h2 (C rs.data (!zero) rs.len) it i2 _ (i5 h0) (by omega) (by omega)
    have c2 := c2 h0
    rw [i3] at c1
    refine ⟨c1, ?_⟩
    have hwf := h2.wf
    have hsl := h2.slen
    have hv : rs.intoBitVec.len = rs.len := rfl
    rw [hv]
    have hpos := supers_pos h2 h0
    have hle : rs.supers.length ≤ rs.len / 8192 + 1 := by omega
    have hlog : Nat.log2 rs.supers.length ≤ Nat.log2 (rs.len / 8192 + 1) := by
      rw [Nat.le_log2 (by omega)]
      exact Nat.le_trans (Nat.log2_self_le (by omega)) hle
    have hmul := Nat.mul_le_mul hlog (show rs.supers.length - 1 + 8192 ≤ rs.len / 8192 + 8192 by omega)
    omega
  · have h0 : C rs.data (!zero) rs.len = 0 := by omega
    rw [h0]
    refine ⟨?_, Nat.zero_le _⟩
    have : (positions (!zero) rs.intoBitVec.bits).length = 0 := by rw [length_positions_eq, h0]
    rw [List.eq_nil_of_length_eq_zero this]; rfl

example := C75_loop_partial (v := BV.fromZeros 1000000) (BV.wf_fromZeros 1000000) true

/-- Defect: the test whether the cached super block contains the next position fails for the last super block, so every
call searches from the select block again. If all `n` positions are in the last super block (number `m`), then each of
the `n` calls passes `m` super blocks, for ones and zeros. -/
theorem C75_last_super_block_defect {v : BV} (h : v.WF) (zero : Bool) {m : Nat} (hm : (v.len - 1) / 8192 = m)
    (hn : v.bits.count (!zero) < 8192) (hall : (v.bits.take (8192 * m)).count (!zero) = 0) :
    ∃ rs it, RsVec.fromBitVec v = .ok rs ∧ SelIter.new rs zero = .ok it ∧
      (callsC rs zero (v.bits.count (!zero)) it).result = .ok ((positions (!zero) v.bits).map some) ∧
      v.bits.count (!zero) * m ≤ (callsC rs zero (v.bits.count (!zero)) it).steps := by
  obtain ⟨rs, it, h1, i1, c1, -⟩ := C75_loop_partial h zero
  refine ⟨rs, it, h1, i1, c1, ?_⟩
  obtain ⟨rs', h1', h2, h3, h4⟩ := fromBitVec_inv h
  rw [h1] at h1'; cases h1'
  obtain ⟨it', i1', i2, i3, i4, i5⟩ := SelIter.new_state (zero := zero) h2
  rw [i1] at i1'; cases i1'
  have e := bits_of_from h3 h4
  have hcount : v.bits.count (!zero) = C rs.data (!zero) rs.len := by
    rw [← e, ← length_positions, length_positions_eq]
  by_cases h0 : 0 < C rs.data (!zero) rs.len
  · have hwf := h2.wf
    have hsl := h2.slen
    have hlen := C_le rs.data (!zero) rs.len
    have hC : C rs.data (!zero) (8192 * m) = 0 := by
      rw [BV.count_take_bits _ _ _ (by omega)] at hall
      rw [h3]; exact hall
    obtain ⟨l, -, l2⟩ := callsC_slow h2 (m := m) (Or.inr (by omega)) (by omega) (by omega)
      (C rs.data (!zero) rs.len) it i2 _ (i5 h0) (by omega) (by omega)
    rw [hcount]; exact l2
  · rw [hcount, show C rs.data (!zero) rs.len = 0 by omega, Nat.zero_mul]; exact Nat.zero_le _

/-- A vector of three super blocks with two ones, both in the last one. -/
example : ∃ v : BV, v.WF ∧ (v.len - 1) / 8192 = 2 ∧ v.bits.count (!false) < 8192 ∧
    (v.bits.take (8192 * 2)).count (!false) = 0 ∧ v.bits.count (!false) = 2 := by
  obtain ⟨v, v1, v2⟩ := exists_bv (List.replicate 16384 false ++ [true, true])
  have hlen : v.len = 16386 := by rw [← BV.length_bits, v2, List.length_append, List.length_replicate]; rfl
  have hc : v.bits.count (!false) = 2 := by
    rw [v2, List.count_append, List.count_replicate, if_neg (by decide)]; rfl
  refine ⟨v, v1, by omega, by omega, ?_, hc⟩
  rw [v2, List.take_append_of_le_length (by rw [List.length_replicate]), List.take_of_length_le (by rw [List.length_replicate]),
    List.count_replicate, if_neg (by decide)]

/-- Hence no bound by the number of positions and super blocks holds: for every `m` there is a vector of `8192 m + 8191`
bits with 8191 positions, on which the loop takes at least `8191 m` steps. -/
theorem C75_worst_case_defect (zero : Bool) (m : Nat) :
    ∃ v rs it, v.WF ∧ v.len = 8192 * m + 8191 ∧ v.bits.count (!zero) = 8191 ∧ RsVec.fromBitVec v = .ok rs ∧
      SelIter.new rs zero = .ok it ∧ 8191 * m ≤ (callsC rs zero 8191 it).steps := by
  obtain ⟨v, v1, v2⟩ := exists_bv (List.replicate (8192 * m) zero ++ List.replicate 8191 (!zero))
  have hlen : v.len = 8192 * m + 8191 := by
    rw [← BV.length_bits, v2, List.length_append, List.length_replicate, List.length_replicate]
  have hcnt : v.bits.count (!zero) = 8191 := by
    rw [v2]
    rw [List.count_append, List.count_replicate, List.count_replicate, if_neg (by cases zero <;> decide),
      if_pos (by cases zero <;> decide), Nat.zero_add]
  obtain ⟨rs, it, h1, i1, -, c2⟩ := C75_last_super_block_defect v1 zero (m := m) (by omega) (by omega) (by
    rw [v2, List.take_append_of_le_length (by rw [List.length_replicate]), List.take_of_length_le (by rw [List.length_replicate]),
      List.count_replicate, if_neg (by cases zero <;> decide)])
  rw [hcnt] at c2
  exact ⟨v, rs, it, v1, hlen, hcnt, h1, i1, c2⟩

example := C75_worst_case_defect false 1000

end Vers
