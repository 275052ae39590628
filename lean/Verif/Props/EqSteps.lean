import Verif.Proofs.EqSteps
import Verif.Props.RsIterSteps

/-! # Property C85: the number of steps of the comparisons of rank/select vectors

`RsVec.fullEqualsC`, `sparseEqualsC` and `eqC` are `full_equals`, `sparse_equals` and `==` with a counter
(`Model/EqSteps.lean`): a step is the comparison of two words, an access to a bit, a rank query, or one of the accesses to
the select blocks, super blocks and blocks that the iterator makes. The claims are that `full_equals` compares limb by
limb and that `sparse_equals` is faster for sparse vectors, and above 4 million bits for all vectors. -/

namespace Vers

variable [Profile]
open RsVec Spec

/-- The step counter does not change the results, for all structures. -/
theorem C85_counter (rs other : RsVec) (zero : Bool) :
    (fullEqualsC rs other).result = fullEquals rs other ∧
      (sparseEqualsC zero rs other).result = sparseEquals zero rs other ∧
      (eqC rs other).result = rs.eq other :=
  ⟨fullEqualsC_result rs other, sparseEqualsC_result zero rs other, eqC_result rs other⟩

/-- Two words with a difference in bit 1: one comparison, or one iterator, two positions (5 accesses each) and bits, and one rank. -/
example : (do
    let a ← RsVec.fromBitVec ⟨[0b1011#64], 4⟩
    let b ← RsVec.fromBitVec ⟨[0b1101#64], 4⟩
    let x ← (fullEqualsC a b).result
    let y ← (sparseEqualsC false a b).result
    pure (x, (fullEqualsC a b).steps, y, (sparseEqualsC false a b).steps)) = .ok (false, 1, false, 14) := by
  decide +revert +kernel

/-- Vectors of different lengths or with different numbers of ones are rejected without looking at any of their bits. -/
theorem C85_rejected {v w : BV} (h : v.WF) (g : w.WF)
    (hne : v.len ≠ w.len ∨ v.bits.count true ≠ w.bits.count true) :
    ∃ a b, RsVec.fromBitVec v = .ok a ∧ RsVec.fromBitVec w = .ok b ∧ (fullEqualsC a b).steps = 0 ∧
      (∀ zero, (sparseEqualsC zero a b).steps = 0) ∧ (eqC a b).steps = 0 := by
  obtain ⟨a, a1, a2, a3, a4⟩ := fromBitVec_inv h
  obtain ⟨b, b1, b2, b3, b4⟩ := fromBitVec_inv g
  have hrej : a.len ≠ b.len ∨ a.rank0 ≠ b.rank0 ∨ a.rank1 ≠ b.rank1 := by
    rcases hne with hne | hne
    · exact Or.inl (by rw [a4, b4]; exact hne)
    · refine Or.inr (Or.inr fun hc => hne ?_)
      rw [a2.r1, b2.r1] at hc
      have e1 := SelIter.length_positions_eq (rs := a) false
      have e2 := SelIter.length_positions_eq (rs := b) false
      rw [length_positions, bits_of_from a3 a4] at e1
      rw [length_positions, bits_of_from b3 b4] at e2
      rw [show (true : Bool) = !false from rfl, e1, e2]
      exact hc
  refine ⟨a, b, a1, b1, (rejected (zero := false) hrej).2, fun z => (rejected hrej).1, ?_⟩
  unfold eqC
  by_cases hl : a.len > 4000000
  · rw [if_pos hl]
    by_cases hr : a.rank1 > a.rank0
    · rw [if_pos hr]; exact (rejected hrej).1
    · rw [if_neg hr]; exact (rejected hrej).1
  · rw [if_neg hl]; exact (rejected (zero := false) hrej).2

example := C85_rejected (v := BV.fromOnes 5000000) (w := BV.fromZeros 5000000) (BV.wf_fromOnes _) (BV.wf_fromZeros _)
  (Or.inr (by
    rw [BV.bits_fromOnes, BV.bits_fromZeros, List.count_replicate, List.count_replicate, if_pos (by decide),
      if_neg (by decide)]
    decide))

/-- `full_equals` makes at most one comparison for each word, and stops at the word with the first difference. -/
theorem C85_full {v w : BV} (h : v.WF) (g : w.WF) :
    ∃ a b, RsVec.fromBitVec v = .ok a ∧ RsVec.fromBitVec w = .ok b ∧
      (fullEqualsC a b).steps ≤ (v.len + 63) / 64 ∧
      ∀ p, v.bits[p]? ≠ w.bits[p]? → (fullEqualsC a b).steps ≤ p / 64 + 1 := by
  obtain ⟨a, a1, a2, a3, a4⟩ := fromBitVec_inv h
  obtain ⟨b, b1, b2, b3, b4⟩ := fromBitVec_inv g
  refine ⟨a, b, a1, b1, ?_⟩
  have := fullEqualsC_steps a2 b2
  rwa [bits_of_from a3 a4, bits_of_from b3 b4, a4] at this

/-- Two vectors of 130 bits that differ in bits 70 and 71. -/
example : (⟨[0#64, 64#64, 0#64], 130⟩ : BV).WF ∧ (⟨[0#64, 128#64, 0#64], 130⟩ : BV).WF ∧
    (⟨[0#64, 64#64, 0#64], 130⟩ : BV).bits[70]? ≠ (⟨[0#64, 128#64, 0#64], 130⟩ : BV).bits[70]? := by decide

/-- The number of steps of `sparse_equals` is at most linear in the number of positions plus the number of bits, and at
most linear in the number of positions times the number of super blocks. Missing for the full property ("faster than
comparing bit by bit" for sparse vectors): a bound by the number of positions plus the number of super blocks, or by the
number of words, see `C85_sparse_defect`. -/
theorem C85_sparse_partial {v w : BV} (h : v.WF) (g : w.WF) (zero : Bool) :
    ∃ a b, RsVec.fromBitVec v = .ok a ∧ RsVec.fromBitVec w = .ok b ∧
      (sparseEqualsC zero a b).steps ≤ 8 * v.bits.count (!zero) + 2 * v.len + 1 ∧
      (sparseEqualsC zero a b).steps ≤ (8 + 2 * (v.len / 8192)) * v.bits.count (!zero) + 1 := by
  obtain ⟨a, a1, a2, a3, a4⟩ := fromBitVec_inv h
  obtain ⟨b, b1, b2, b3, b4⟩ := fromBitVec_inv g
  refine ⟨a, b, a1, b1, ?_⟩
  have hc := SelIter.length_positions_eq (rs := a) zero
  rw [length_positions, bits_of_from a3 a4] at hc
  rw [hc, ← a4]
  obtain ⟨s1, s2, -⟩ := sparseEqualsC_steps (zero := zero) a2 b2
  exact ⟨s1, s2⟩

example := C85_sparse_partial (v := BV.fromZeros 5000000) (w := BV.fromZeros 5000000) (BV.wf_fromZeros _)
  (BV.wf_fromZeros _) false

/-- `sparse_equals` stops at the first difference: if the vectors agree on the first `p` bits and differ in bit `p`, it
looks at no more positions than there are in the first `p` bits, and one. -/
theorem C85_sparse_stops {v w : BV} (h : v.WF) (g : w.WF) (zero : Bool) {p : Nat}
    (hpre : v.bits.take p = w.bits.take p) (hne : v.bits[p]? ≠ w.bits[p]?) :
    ∃ a b, RsVec.fromBitVec v = .ok a ∧ RsVec.fromBitVec w = .ok b ∧
      (sparseEqualsC zero a b).steps ≤ (8 + 2 * (v.len / 8192)) * ((v.bits.take p).count (!zero) + 1) + 1 := by
  obtain ⟨a, a1, a2, a3, a4⟩ := fromBitVec_inv h
  obtain ⟨b, b1, b2, b3, b4⟩ := fromBitVec_inv g
  refine ⟨a, b, a1, b1, ?_⟩
  by_cases hl : v.len = w.len
  · have hp : p < v.len := by
      refine Decidable.byContradiction fun hc => hne ?_
      rw [List.getElem?_eq_none (by rw [BV.length_bits]; omega), List.getElem?_eq_none (by rw [BV.length_bits]; omega)]
    obtain ⟨-, -, s3, -⟩ := sparseEqualsC_steps (zero := zero) a2 b2
    rw [BV.count_take_bits _ _ _ (by omega), ← a3, ← a4]
    refine s3 p (by omega) (fun i hi => ?_) (fun hc => hne ?_)
    · have := congrArg (·[i]?) hpre
      simp only [List.getElem?_take, if_pos hi] at this
      rw [BV.bits_getElem?, BV.bits_getElem?, if_pos (by omega), if_pos (by omega)] at this
      rw [a3, b3]
      exact Option.some.inj this
    · rw [BV.bits_getElem?, BV.bits_getElem?, if_pos (by omega), if_pos (by omega), ← a3, ← b3, hc]
  · rw [(rejected (Or.inl (by rw [a4, b4]; exact hl))).1]
    exact Nat.zero_le _

example : (⟨[0b1011#64], 4⟩ : BV).bits.take 1 = (⟨[0b1101#64], 4⟩ : BV).bits.take 1 ∧
    (⟨[0b1011#64], 4⟩ : BV).bits[1]? ≠ (⟨[0b1101#64], 4⟩ : BV).bits[1]? := by decide

/-- `==` makes at most one comparison for each word of a vector of at most 4 million bits. For longer vectors, the bounds
of `C85_sparse_partial` hold with the smaller of the numbers of ones and zeros. Missing for the full property: for these,
the number of words is not a bound, see `C85_eq_defect` and `C85_eq_dense_defect`. -/
theorem C85_eq_partial {v w : BV} (h : v.WF) (g : w.WF) :
    ∃ a b, RsVec.fromBitVec v = .ok a ∧ RsVec.fromBitVec w = .ok b ∧
      (v.len ≤ 4000000 → (eqC a b).steps ≤ (v.len + 63) / 64) ∧
      (4000000 < v.len →
        (eqC a b).steps ≤ 8 * min (v.bits.count true) (v.bits.count false) + 2 * v.len + 1 ∧
        (eqC a b).steps ≤ (8 + 2 * (v.len / 8192)) * min (v.bits.count true) (v.bits.count false) + 1) := by
  obtain ⟨a, a1, a2, a3, a4⟩ := fromBitVec_inv h
  obtain ⟨b, b1, b2, b3, b4⟩ := fromBitVec_inv g
  refine ⟨a, b, a1, b1, fun hl => ?_, fun hl => ?_⟩
  · unfold eqC
    rw [if_neg (by omega), ← a4]
    exact (fullEqualsC_steps a2 b2).1
  · unfold eqC
    rw [if_pos (by omega)]
    have c1 := SelIter.length_positions_eq (rs := a) false
    have c0 := SelIter.length_positions_eq (rs := a) true
    rw [length_positions, bits_of_from a3 a4] at c1 c0
    have r0 := a2.r0
    have r1 := a2.r1
    simp only [Bool.not_false, Bool.not_true] at c0 c1
    rw [← a4]
    by_cases hr : a.rank1 > a.rank0
    · rw [if_pos hr]
      obtain ⟨s1, s2, -⟩ := sparseEqualsC_steps (zero := true) a2 b2
      rw [Bool.not_true] at s1 s2
      rw [Nat.min_eq_right (by omega), c0]
      exact ⟨s1, s2⟩
    · rw [if_neg hr]
      obtain ⟨s1, s2, -⟩ := sparseEqualsC_steps (zero := false) a2 b2
      rw [Bool.not_false] at s1 s2
      rw [Nat.min_eq_left (by omega), c1]
      exact ⟨s1, s2⟩

example := C85_eq_partial (v := BV.fromZeros 5000000) (w := BV.fromZeros 5000000) (BV.wf_fromZeros _) (BV.wf_fromZeros _)

/-- The steps of `sparse_equals` on equal vectors are those of the loop over all positions (C75), and two for each
position. -/
theorem C85_sparse_equal {v w : BV} (h : v.WF) (g : w.WF) (he : v.bits = w.bits) (zero : Bool) :
    ∃ a b it, RsVec.fromBitVec v = .ok a ∧ RsVec.fromBitVec w = .ok b ∧ SelIter.new a zero = .ok it ∧
      (sparseEqualsC zero a b).steps =
        (SelIter.callsC a zero (v.bits.count (!zero)) it).steps + 2 * v.bits.count (!zero) + 1 := by
  obtain ⟨a, a1, a2, a3, a4⟩ := fromBitVec_inv h
  obtain ⟨b, b1, b2, b3, b4⟩ := fromBitVec_inv g
  obtain ⟨it, i1, -⟩ := SelIter.new_rel (zero := zero) a2
  refine ⟨a, b, it, a1, b1, i1, ?_⟩
  obtain ⟨-, -, -, s4⟩ := sparseEqualsC_steps (zero := zero) a2 b2
  have hc := SelIter.length_positions_eq (rs := a) zero
  rw [length_positions, bits_of_from a3 a4] at hc
  rw [hc]
  exact s4 (by rw [bits_of_from a3 a4, bits_of_from b3 b4, he]) it i1

example := C85_sparse_equal (v := BV.fromOnes 20000) (w := BV.fromOnes 20000) (BV.wf_fromOnes _) (BV.wf_fromOnes _) rfl false

/-- Defect: `sparse_equals` is slower than `full_equals` on sparse vectors, however sparse: for every `m` there is a vector
of `8192 m + 8191` bits with 8191 positions whose comparison with itself takes at least `8191 m` steps, while `full_equals`
makes at most `128 m + 128` comparisons of words. -/
theorem C85_sparse_defect (zero : Bool) (m : Nat) :
    ∃ v a, v.WF ∧ v.len = 8192 * m + 8191 ∧ v.bits.count (!zero) = 8191 ∧ RsVec.fromBitVec v = .ok a ∧
      8191 * m ≤ (sparseEqualsC zero a a).steps ∧ (fullEqualsC a a).steps ≤ 128 * m + 128 := by
  obtain ⟨v, a, it, v1, v2, v3, a1, i1, c1⟩ := C75_worst_case_defect zero m
  refine ⟨v, a, v1, v2, v3, a1, ?_⟩
  obtain ⟨a', b', it', h1, h2, h3, h4⟩ := C85_sparse_equal v1 v1 rfl zero
  rw [a1] at h1 h2
  cases h1; cases h2
  rw [i1] at h3
  cases h3
  obtain ⟨a', b', h1, h2, h5, -⟩ := C85_full v1 v1
  rw [a1] at h1 h2
  cases h1; cases h2
  rw [v3] at h4
  omega

example := C85_sparse_defect false 1000

/-- Defect: `==` uses `sparse_equals` for these vectors if they have more than 4 million bits. -/
theorem C85_eq_defect (m : Nat) (hm : 489 ≤ m) :
    ∃ v a, v.WF ∧ v.len = 8192 * m + 8191 ∧ v.bits.count true = 8191 ∧ RsVec.fromBitVec v = .ok a ∧
      8191 * m ≤ (eqC a a).steps ∧ (fullEqualsC a a).steps ≤ 128 * m + 128 := by
  obtain ⟨v, a, v1, v2, v3, a1, c1, c2⟩ := C85_sparse_defect false m
  refine ⟨v, a, v1, v2, v3, a1, ?_, c2⟩
  obtain ⟨a', a1', a2, a3, a4⟩ := fromBitVec_inv v1
  rw [a1] at a1'
  cases a1'
  have e1 := SelIter.length_positions_eq (rs := a) false
  have e0 := SelIter.length_positions_eq (rs := a) true
  rw [length_positions, bits_of_from a3 a4] at e1 e0
  simp only [Bool.not_false, Bool.not_true] at e0 e1 v3
  have r0 := a2.r0
  have r1 := a2.r1
  have hsum := BV.count_true_add_false v.bits
  rw [BV.length_bits] at hsum
  unfold eqC
  rw [if_pos (by omega), if_neg (by omega)]
  exact c1

example : (489 : Nat) ≤ 489 := by decide

/-- Defect: above 4 million bits, `==` is not faster than `full_equals` for all vectors: on every such vector, the
comparison with an equal vector takes more steps than twice the smaller of the numbers of ones and zeros. If half of the
bits are set, this is more than one step for each bit, while `full_equals` makes one comparison for 64 bits (C85_full). -/
theorem C85_eq_dense_defect {v w : BV} (h : v.WF) (g : w.WF) (he : v.bits = w.bits) (hl : 4000000 < v.len) :
    ∃ a b, RsVec.fromBitVec v = .ok a ∧ RsVec.fromBitVec w = .ok b ∧
      2 * min (v.bits.count true) (v.bits.count false) < (eqC a b).steps := by
  obtain ⟨a, a1, a2, a3, a4⟩ := fromBitVec_inv h
  obtain ⟨b, b1, b2, b3, b4⟩ := fromBitVec_inv g
  refine ⟨a, b, a1, b1, ?_⟩
  unfold eqC
  rw [if_pos (by omega)]
  by_cases hr : a.rank1 > a.rank0
  · rw [if_pos hr]
    obtain ⟨a', b', it, h1, h2, -, h4⟩ := C85_sparse_equal h g he true
    rw [a1] at h1; rw [b1] at h2
    cases h1; cases h2
    rw [h4, Bool.not_true]
    omega
  · rw [if_neg hr]
    obtain ⟨a', b', it, h1, h2, -, h4⟩ := C85_sparse_equal h g he false
    rw [a1] at h1; rw [b1] at h2
    cases h1; cases h2
    rw [h4, Bool.not_false]
    omega

example : ∃ v : BV, v.WF ∧ 4000000 < v.len ∧ v.bits.count true = 3000000 ∧ v.bits.count false = 3000000 := by
  obtain ⟨v, v1, v2⟩ := exists_bv (List.replicate 3000000 false ++ List.replicate 3000000 true)
  refine ⟨v, v1, ?_, ?_, ?_⟩
  · rw [← BV.length_bits, v2, List.length_append, List.length_replicate, List.length_replicate]; decide
  · rw [v2, List.count_append, List.count_replicate, List.count_replicate, if_neg (by decide), if_pos (by decide)]
  · rw [v2, List.count_append, List.count_replicate, List.count_replicate, if_pos (by decide), if_neg (by decide)]

end Vers
