import Verif.Proofs.TimeWavelet
import Verif.Proofs.WaveletSteps
import Verif.Props.Time
import Verif.Props.Wavelet

/-! # Property C72: the number of steps of the queries of the wavelet matrix

`m.rankC i s` etc. are the queries with a counter of the calls of functions that take constant time
(`Model/WaveletSteps.lean`): rank queries and bit accesses on the levels and accesses to the bits of the symbol and of
the result; a call of `select0` or `select1` on a level counts as one step. `(m.rankC i s).Within (m.rank i s) n` means
that the result is that of the query and that the number of steps is at most `n`.

`m.selectU64 n s b` is `select_u64` with the budget `b rs` for the select query on the level `rs` (see C60). -/

set_option linter.unusedSimpArgs false

namespace Vers

variable [Profile]
open WM Spec Counted

/-- C72: the queries of the matrix except for the select queries take a number of steps linear in the width of the
elements, for all arguments. -/
theorem C72_queries (m : WM) (i j k : Nat) (symbol : BV) (u : Word) :
    ((m.getValueC i).Within (m.getValue i) (3 * m.bitsPer) ∧ (m.getU64C i).Within (m.getU64 i) (3 * m.bitsPer)) ∧
    ((m.rankC i symbol).Within (m.rank i symbol) (3 * m.bitsPer) ∧
      (m.rankU64C i u).Within (m.rankU64 i u) (3 * m.bitsPer) ∧
      (m.rankOffsetC i j symbol).Within (m.rankOffset i j symbol) (3 * m.bitsPer) ∧
      (m.rankOffsetU64C i j u).Within (m.rankOffsetU64 i j u) (3 * m.bitsPer) ∧
      (m.rankRangeC i j symbol).Within (m.rankRange i j symbol) (3 * m.bitsPer) ∧
      (m.rankRangeU64C i j u).Within (m.rankRangeU64 i j u) (3 * m.bitsPer)) ∧
    ((m.quantileC i j k).Within (m.quantile i j k) (3 * m.bitsPer) ∧
      (m.quantileU64C i j k).Within (m.quantileU64 i j k) (3 * m.bitsPer) ∧
      (m.getSortedC i).Within (m.getSorted i) (3 * m.bitsPer) ∧
      (m.getSortedU64C i).Within (m.getSortedU64 i) (3 * m.bitsPer) ∧
      (m.rangeMinC i j).Within (m.rangeMin i j) (3 * m.bitsPer) ∧
      (m.rangeMinU64C i j).Within (m.rangeMinU64 i j) (3 * m.bitsPer) ∧
      (m.rangeMaxC i j).Within (m.rangeMax i j) (3 * m.bitsPer) ∧
      (m.rangeMaxU64C i j).Within (m.rangeMaxU64 i j) (3 * m.bitsPer) ∧
      (m.rangeMedianC i j).Within (m.rangeMedian i j) (3 * m.bitsPer) ∧
      (m.rangeMedianU64C i j).Within (m.rangeMedianU64 i j) (3 * m.bitsPer)) ∧
    (m.predecessorC i j symbol).Within (m.predecessor i j symbol) (7 * m.bitsPer + 1) ∧
      (m.predecessorU64C i j u).Within (m.predecessorU64 i j u) (7 * m.bitsPer + 1) ∧
      (m.successorC i j symbol).Within (m.successor i j symbol) (7 * m.bitsPer + 1) ∧
      (m.successorU64C i j u).Within (m.successorU64 i j u) (7 * m.bitsPer + 1) := by
  have hq := fun k => quantile_steps m i j k
  have hqu := fun k => quantileU64_steps m i j k
  have hr := fun (i j : Nat) => (rankGen_steps m (readBV m.bitsPer symbol) i j).map (f := some)
  have hru := fun (i j : Nat) => (rankGen_steps m (readU64 m.bitsPer u) i j).map (f := some)
  refine ⟨⟨Within.ite (within_pure _ _) ?_, Within.ite (within_pure _ _) (reconstruct_steps _ _ _ _).map⟩,
    ⟨Within.ite (within_pure _ _) (hr _ _), Within.ite (within_pure _ _) (hru _ _),
      Within.ite (within_pure _ _) (hr _ _), Within.ite (within_pure _ _) (hru _ _),
      Within.ite (within_pure _ _) (hr _ _), Within.ite (within_pure _ _) (hru _ _)⟩,
    ⟨hq _, hqu _, Within.ite (within_pure _ _) (partialQuantile_steps m _ _ _ _ _).map,
      Within.ite (within_pure _ _) (partialQuantileU64_steps m _ _ _ _ _).map, hq _, hqu _,
      Within.ite (within_pure _ _) (hq _), Within.ite (within_pure _ _) (hqu _),
      Within.ite (within_pure _ _) (hq _), Within.ite (within_pure _ _) (hqu _)⟩,
    Within.ite (within_pure _ _) ((predLoop_steps (searchBV_counts m symbol) m.data _ _ _ _ _).mono ?_),
    Within.ite (within_pure _ _) ((predLoop_steps (searchU64_counts m u) m.data _ _ _ _ _).mono ?_),
    Within.ite (within_pure _ _) ((succLoop_steps (searchBV_counts m symbol) m.data _ _ _ _ _).mono ?_),
    Within.ite (within_pure _ _) ((succLoop_steps (searchU64_counts m u) m.data _ _ _ _ _).mono ?_)⟩
  · have h := free_bind (y := subR m.bitsPer 1) fun level =>
      (reconstruct_steps writeDown m.data i (BV.fromZeros m.bitsPer, level)).map (f := fun t => some t.1)
    refine ⟨h.same.trans ?_, h.le⟩
    unfold getValueUnchecked
    rw [bind_assoc]
    refine bind_congr fun _ => ?_
    rw [bind_assoc]
    rfl
  all_goals (unfold bitsPer; omega)

/-- the number of steps of a query, and its result -/
example : (do
    let m ← fromSlice [5#64, 1#64, 7#64, 1#64, 4#64] 3
    pure ((m.predecessorU64C 0 5 3#64).steps, (m.rankU64C 4 1#64).steps)) = (.ok (13, 9) : R (Nat × Nat)) := by
  decide +revert +kernel

/-- C72, select queries: they take a number of steps linear in the width of the elements, but one step for each
level is a call of `select0` or `select1`, which does not take constant time (see the following theorems). -/
theorem C72_select_levels_partial (m : WM) (offset rank : Nat) (symbol : BV) (u : Word) :
    (m.selectC rank symbol).Within (m.select rank symbol) (4 * m.bitsPer) ∧
    (m.selectU64C rank u).Within (m.selectU64 rank u) (4 * m.bitsPer) ∧
    (m.selectOffsetC offset rank symbol).Within (m.selectOffset offset rank symbol) (4 * m.bitsPer) ∧
    (m.selectOffsetU64C offset rank u).Within (m.selectOffsetU64 offset rank u) (4 * m.bitsPer) :=
  ⟨Within.ite (selectGen_steps m _ _ _).map (within_pure _ _), Within.ite (within_pure _ _) (selectGen_steps m _ _ _).map,
    Within.ite (within_pure _ _) (selectGen_steps m _ _ _).map, Within.ite (within_pure _ _) (selectGen_steps m _ _ _).map⟩

example : (do
    let m ← fromSlice [5#64, 1#64, 7#64, 1#64, 4#64] 3
    pure (m.selectU64C 1 1#64).steps) = (.ok 12 : R Nat) := by
  decide +revert +kernel

/-- C72, upper bound: for each of the `k` levels, a budget suffices that is the number of super blocks (of 8192 bits) of a
level. It is linear in the length and not constant, as documented; it cannot be improved (`C72_select_defect`). -/
theorem C72_select_linear_partial {m : WM} {k : Nat} {vals : List Nat} (h : Built m k vals) {b : RsVec → Nat}
    (hb : b = fun _ => vals.length / 8192 + 2) (offset rank : Nat) (symbol : BV) (u : Word) :
    m.select rank symbol b = m.select rank symbol ∧ m.selectU64 rank u b = m.selectU64 rank u ∧
    m.selectOffset offset rank symbol b = m.selectOffset offset rank symbol ∧
    m.selectOffsetU64 offset rank u b = m.selectOffsetU64 offset rank u ∧
    m.selectUnchecked rank symbol b = m.selectUnchecked rank symbol ∧
    m.selectU64Unchecked rank u b = m.selectU64Unchecked rank u ∧
    m.selectOffsetUnchecked offset rank symbol b = m.selectOffsetUnchecked offset rank symbol ∧
    m.selectOffsetU64Unchecked offset rank u b = m.selectOffsetU64Unchecked offset rank u := by
  subst hb
  have H := selectGen_budget h
  unfold WM.select WM.selectU64 WM.selectOffset WM.selectOffsetU64 WM.selectUnchecked WM.selectU64Unchecked
    WM.selectOffsetUnchecked WM.selectOffsetU64Unchecked
  simp only [H]
  exact ⟨trivial, trivial, trivial, trivial, trivial, trivial, trivial, trivial⟩

example : ∃ m, fromSlice [5#64, 1#64, 7#64, 1#64, 4#64] 3 = .ok m ∧
    m.selectU64 1 1#64 (fun _ => 5 / 8192 + 2) = m.selectU64 1 1#64 := by
  obtain ⟨m, h1, h2⟩ := C31_from_slice (k := 3) (by omega) (by omega) [5#64, 1#64, 7#64, 1#64, 4#64]
  exact ⟨m, h1, (C72_select_linear_partial h2 rfl 0 1 BV.new 1#64).2.1⟩

/-- the second 1 of the sequence is at position 3 -/
example : (do
    let m ← fromSlice [5#64, 1#64, 7#64, 1#64, 4#64] 3
    m.selectU64 1 1#64 (fun _ => 5 / 8192 + 2)) = .ok (some 3) := by
  decide +revert +kernel

theorem readU64_one : readU64 1 1#64 0 = .ok 1#64 := by decide +revert

/-- Defect: all operations are documented to take time linear in the width `k` of the elements. For every `m` there is a
sequence of `8192 m + 1` elements of one bit, on which `select_u64` needs a budget greater than `m`. -/
theorem C72_select_defect (m : Nat) (hm : 1 ≤ m) (hl : m < 2 ^ 50) :
    ∃ wm, fromSlice (1#64 :: List.replicate (8192 * m - 1) 0#64 ++ [1#64]) 1 = .ok wm ∧
      wm.selectU64 1 1#64 = .ok (some (8192 * m)) ∧ wm.selectU64 1 1#64 (fun _ => m) = .error .fuel := by
  obtain ⟨wm, h1, h2⟩ := C31_from_slice (k := 1) (by omega) (by omega)
    (1#64 :: List.replicate (8192 * m - 1) 0#64 ++ [1#64])
  refine ⟨wm, h1, ?_⟩
  have hvals : (1#64 :: List.replicate (8192 * m - 1) 0#64 ++ [1#64]).map (·.toNat % 2 ^ 1) =
      1 :: List.replicate (8192 * m - 1) 0 ++ [1] := by simp
  rw [hvals] at h2
  obtain ⟨vs, v1, v2, v3⟩ := built_vecs h2
  match vs, v2 with
  | [v], _ =>
  obtain ⟨-, ⟨w1, -, w3⟩, -⟩ := v3
  have hbits : v.bits = true :: List.replicate (8192 * m - 1) false ++ [true] := by
    rw [w3]; simp [top]
  unfold buildAll at v1
  obtain ⟨rs, r1, v1⟩ := bind_eq_ok.mp v1
  have hdata : wm.data = [rs] := by
    unfold buildAll at v1; exact (Except.ok.inj v1).symm
  obtain ⟨rs', r1', hlev⟩ := level_of_build w1
  obtain ⟨rs'', r1'', hslow⟩ := C60_select_linear_defect w1
  rw [r1] at r1' r1''
  cases r1'; cases r1''
  have hcnt : v.bits.count true = 2 := by
    rw [hbits]; simp [List.count_replicate, List.count_cons, List.count_append]
  have s0 : IsSelect true v.bits 0 0 := by rw [hbits]; exact ⟨rfl, rfl⟩
  have s1 : IsSelect true v.bits 1 (8192 * m) := by
    rw [hbits]
    have hl : (true :: List.replicate (8192 * m - 1) false).length = 8192 * m := by simp; omega
    constructor
    · rw [List.getElem?_append_right (by omega), hl]; simp
    · rw [List.take_append_of_le_length (by omega), List.take_of_length_le (by omega)]
      simp [List.count_replicate, List.count_cons]
  have hlen : wm.len = 8192 * m + 1 := by
    rw [(C31_access h2).1]; simp; omega
  have hsel : ∀ b, wm.selectU64 1 1#64 b = (do let p ← rs.select false 1 (b rs); pure (wm.ifInside p)) := by
    intro b
    have hr := readU64_one
    have hrank : rs.rank true 0 = .ok 0 ∧ rs.rank false 0 = .ok 0 := by
      rw [hlev.rk, hlev.rk]; simp
    have hbp : wm.bitsPer = 1 := by unfold WM.bitsPer; rw [hdata]; rfl
    unfold WM.selectU64 WM.selectU64Unchecked WM.selectOffsetU64Unchecked WM.selectGen
    rw [hbp, if_neg (by omega), hdata]
    unfold selectDown selectDown selectUp selectUp
    rw [hr, ok_bind]
    unfold go goOne goUp
    have h0 : rs.rank0 ≤ 8192 * m + 1 := by
      rw [hlev.rank0]
      refine Nat.le_trans List.count_le_length (Nat.le_of_eq ?_)
      rw [hbits]; simp; omega
    rw [if_neg (by decide), hrank.2, ok_bind, pure_eq_ok, ok_bind, pure_eq_ok, ok_bind, addU_of_lt (by omega), ok_bind,
      pure_eq_ok, ok_bind, ok_bind, if_neg (by decide), subR_of_le (by omega), ok_bind,
      show rs.rank0 + 0 + 1 - rs.rank0 = 1 by omega]
  refine ⟨?_, ?_⟩
  · rw [hsel, hlev.sel false 1 _ s1, ok_bind, pure_eq_ok]
    unfold WM.ifInside
    rw [if_pos (by omega)]
  · rw [hsel, hslow false 1 _ 0 s1 (by simpa using s0) (Or.inl rfl) m hm (by omega)]
    rfl

example := C72_select_defect 3 (by omega) (by omega)

end Vers
