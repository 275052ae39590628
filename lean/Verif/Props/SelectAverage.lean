import Verif.Proofs.EfSteps
import Verif.Proofs.SelectAverage
import Verif.Props.Time

/-! # Property C77: the average time of select

`RsVec.selectC` is `select0`/`select1` with a counter for the accesses to the select blocks, super blocks and blocks
(`Model/RsIterSteps.lean`). The sum over all ranks divided by the number of ranks is the average over all queries that
have an answer. `EF.getC` is the random access to an Elias-Fano vector with the same counter
(`Model/EfSteps.lean`). -/

namespace Vers

variable [Profile]
open RsVec Spec Counted

/-- The step counter does not change the result, for every structure. -/
theorem C77_counter (rs : RsVec) (zero : Bool) (k : Nat) : (rs.selectC zero k).result = rs.select zero k :=
  selectC_result zero k

example : (do
    let rs ← RsVec.fromBitVec ⟨[0b1011#64], 4⟩
    (rs.selectC false 2).result) = .ok 3 := by decide +revert +kernel

/-- The queries for all ones (or all zeros) take at most 8 steps on average, and two steps for each bit of the vector in
total. Missing for the full property: this is constant on average if the sought bits are a constant fraction of the vector
(`C77_dense_partial`), but not if they are few (`C77_sparse_defect`). -/
theorem C77_sum_partial {v : BV} (h : v.WF) : ∃ rs, RsVec.fromBitVec v = .ok rs ∧ ∀ zero,
    ((List.range (v.bits.count (!zero))).map fun k => (rs.selectC zero k).steps).sum ≤
      8 * v.bits.count (!zero) + 2 * v.len := by
  obtain ⟨rs, h1, h2, h3, h4⟩ := fromBitVec_inv h
  refine ⟨rs, h1, fun zero => ?_⟩
  have hc : v.bits.count (!zero) = C rs.data (!zero) rs.len := by rw [BV.count_bits_eq_cnt, h3, h4]; rfl
  have := sum_selectC h2 zero _ (Nat.le_refl _)
  rw [if_neg (Nat.lt_irrefl _)] at this
  have hwf := h2.wf
  have hsl := h2.slen
  rw [hc, ← h4]
  omega

example := C77_sum_partial (v := BV.fromOnes 1000000) (BV.wf_fromOnes 1000000)

/-- If at least every `d`-th bit is a one (zero), the average is at most `8 + 2d`, whatever the length and the positions. -/
theorem C77_dense_partial {v : BV} (h : v.WF) : ∃ rs, RsVec.fromBitVec v = .ok rs ∧ ∀ zero d,
    v.len ≤ d * v.bits.count (!zero) →
    ((List.range (v.bits.count (!zero))).map fun k => (rs.selectC zero k).steps).sum ≤
      (8 + 2 * d) * v.bits.count (!zero) := by
  obtain ⟨rs, h1, h2⟩ := C77_sum_partial h
  refine ⟨rs, h1, fun zero d hd => Nat.le_trans (h2 zero) ?_⟩
  rw [Nat.add_mul, Nat.mul_assoc]
  omega

/-- 100 bits, all of them ones: every one-th bit is a one. -/
example : (BV.fromOnes 100).len ≤ 1 * (BV.fromOnes 100).bits.count (!false) := by decide +kernel

/-- Defect: the average is not bounded by a constant. For every `m` there is a vector of `8192 m + 8191` bits with 8191
ones (zeros), on which each of the queries takes at least `m` steps. -/
theorem C77_sparse_defect (zero : Bool) (m : Nat) :
    ∃ v rs, v.WF ∧ v.len = 8192 * m + 8191 ∧ v.bits.count (!zero) = 8191 ∧ RsVec.fromBitVec v = .ok rs ∧
      (∀ k, k < 8191 → m ≤ (rs.selectC zero k).steps) ∧
      8191 * m ≤ ((List.range 8191).map fun k => (rs.selectC zero k).steps).sum := by
  obtain ⟨v, v1, v2⟩ := exists_bv (List.replicate (8192 * m) zero ++ List.replicate 8191 (!zero))
  have hlen : v.len = 8192 * m + 8191 := by
    rw [← BV.length_bits, v2, List.length_append, List.length_replicate, List.length_replicate]
  have hcnt : v.bits.count (!zero) = 8191 := by
    rw [v2]
    rw [List.count_append, List.count_replicate, List.count_replicate, if_neg (by cases zero <;> decide),
      if_pos (by cases zero <;> decide), Nat.zero_add]
  have hnone : (v.bits.take (8192 * m)).count (!zero) = 0 := by
    rw [v2, List.take_append_of_le_length (by rw [List.length_replicate]), List.take_of_length_le (by rw [List.length_replicate]),
      List.count_replicate, if_neg (by cases zero <;> decide)]
  obtain ⟨rs, h1, h2, h3, h4⟩ := fromBitVec_inv v1
  have hc : C rs.data (!zero) rs.len = 8191 := by rw [← hcnt, BV.count_bits_eq_cnt, h3, h4]; rfl
  have h0 : C rs.data (!zero) (8192 * m) = 0 := by
    rw [BV.count_take_bits _ _ _ (by omega)] at hnone
    rw [h3]; exact hnone
  have key : ∀ k, k < 8191 → m ≤ (rs.selectC zero k).steps := by
    intro k hk
    obtain ⟨s, s1, -, s3⟩ := selectC_steps h2 zero (r := k) (by omega)
    have hs := s3 (Or.inr (by omega))
    have hk0 : k / 8192 = 0 := by omega
    have hhint : SelIter.hint rs zero 0 = 0 := by
      unfold SelIter.hint
      cases hs : rs.selects[0]? with
      | none => rfl
      | some e => exact (h2.sel zero).first e hs
    rw [hk0, hhint] at hs
    have hms : m ≤ s := by
      refine Decidable.byContradiction fun hc => ?_
      have hwf := h2.wf
      have hsl := h2.slen
      have := s1.2.2 (by omega)
      have := C_mono rs.data (!zero) (i := 8192 * (s + 1)) (j := 8192 * m) (by omega)
      omega
    omega
  refine ⟨v, rs, v1, hlen, hcnt, h1, key, ?_⟩
  have : ∀ n, n ≤ 8191 → n * m ≤ ((List.range n).map fun k => (rs.selectC zero k).steps).sum := by
    intro n
    induction n with
    | zero => intro _; rw [Nat.zero_mul]; exact Nat.zero_le _
    | succ n ih =>
      intro hn
      have := ih (by omega)
      have := key n (by omega)
      rw [List.range_succ, List.map_append, List.sum_append, Nat.succ_mul]
      simp only [List.map_cons, List.map_nil, List.sum_cons, List.sum_nil]
      omega
  exact this 8191 (Nat.le_refl _)

example := C77_sparse_defect false 1000

/-- The step counter of the random access to an Elias-Fano vector does not change the result. -/
theorem C77_get_counter (ef : EF) (i : Nat) : (ef.getC i).result = ef.get i := (EF.getC_within i).same

example : (do
    let ef ← EF.fromSlice ceilLog2 [3#64, 5#64, 900#64]
    (ef.getC 2).result) = .ok (some 900#64) := by decide +revert +kernel

/-- Random access to an Elias-Fano vector takes constant time on average over its elements, for every sorted sequence and
every rounding of the logarithm: the ones are a constant fraction of the bits of the upper half. -/
theorem C77_elias_fano_get {fl : Nat → Nat} (hfl : LogLike fl) {data : List Word} (hs : Sorted data)
    (hl : data.length < 2 ^ 60) : ∃ ef, EF.fromSlice fl data = .ok ef ∧
      ((List.range data.length).map fun i => (ef.getC i).steps).sum ≤ 27 * data.length + 36 :=
  EF.sum_getC hfl hs hl

example := C77_elias_fano_get logLike_ceilLog2 (data := List.replicate 100000 7#64)
  (by unfold Sorted; rw [List.pairwise_replicate]; right; decide) (by rw [List.length_replicate]; decide)

/-- Three accesses of six steps each. -/
example : (do
    let ef ← EF.fromSlice ceilLog2 [3#64, 5#64, 900#64]
    pure ((List.range 3).map fun i => (ef.getC i).steps)) = .ok [6, 6, 6] := by decide +revert +kernel

end Vers
