import Verif.Proofs.ProbeRmq
import Verif.Proofs.ProbeTree
import Verif.Proofs.ProbeWavelet
import Verif.Props.TimeWavelet

/-! # C74 and parts of C60, C62 and C72: the number of memory cells read by a query

`Probes same n f s` (`SpecProbe.lean`): there are `n` cells such that `f` has the same result on every structure with the
same contents as `s` in these cells. -/

set_option linter.unusedSimpArgs false

namespace Vers

variable [Profile]
open Spec

/-! ## Range minimum queries -/

/-- C74, `BinaryRmq`: a query reads at most 5 cells, for every structure and all arguments. -/
theorem C74_binary (s : BinRmq) (i j : Nat) : Probes BinCell.same 5 (fun s => s.rangeMin i j) s := s.reads_rangeMin i j

example : ∃ s, BinRmq.fromVec [7#64, 3#64, 5#64] = .ok s ∧ s.rangeMin 0 2 = .ok 1 ∧
    Probes BinCell.same 5 (fun s => s.rangeMin 0 2) s :=
  ⟨⟨[7#64, 3#64, 5#64], [0, 1, 1, 0, 0, 0, 0, 0, 0]⟩, by decide +revert, by decide +revert, C74_binary _ 0 2⟩

/-- C74, `BinaryRmq`: a query with a range of any kind. -/
theorem C74_binary_range (s : BinRmq) (a b : Bnd) : Probes BinCell.same 6 (fun s => s.rangeMinWithRange a b) s :=
  s.reads_withRange a b

/-- C74, `FastRmq`: a query reads at most 130 cells, and at most 12 if the range is not within one of the blocks of 128
elements. -/
theorem C74_fast (s : FastRmq) (i j : Nat) :
    Probes FastCell.same 130 (fun s => s.rangeMin i j) s ∧
    (i / 128 ≠ j / 128 → Probes FastCell.same 12 (fun s => s.rangeMin i j) s) := by
  have h := s.reads_rangeMin i j
  refine ⟨Probes.mono h (by split <;> omega), fun hne => ?_⟩
  rwa [if_neg hne] at h

/-- C74, `FastRmq`: a query with a range of any kind. -/
theorem C74_fast_range (s : FastRmq) (a b : Bnd) : Probes FastCell.same 131 (fun s => s.rangeMinWithRange a b) s :=
  s.reads_withRange a b

/-- The minimum of the first two elements cannot be found without reading a cell. -/
example : ¬ Probes BinCell.same 0 (fun s => s.rangeMin 0 1) ⟨[1#64, 2#64], [0, 0, 0, 0]⟩ := by
  rintro ⟨L, h1, h2⟩
  have h := h2 ⟨[], []⟩ (by
    intro k hk
    rw [List.eq_nil_of_length_eq_zero (Nat.le_zero.mp h1)] at hk
    cases hk)
  clear h1 h2 L
  simp only [] at h
  revert h
  decide +revert +kernel

/-- the same query on the block structure -/
example : ¬ Probes FastCell.same 0 (fun s => s.rangeMin 0 1) ⟨[1#64, 2#64], ⟨[1#64], [0]⟩, [0], [⟨1#128, 3#128⟩]⟩ := by
  rintro ⟨L, h1, h2⟩
  have h := h2 ⟨[], ⟨[], []⟩, [], []⟩ (by
    intro k hk
    rw [List.eq_nil_of_length_eq_zero (Nat.le_zero.mp h1)] at hk
    cases hk)
  clear h1 h2 L
  simp only [] at h
  revert h
  decide +revert +kernel

/-! ## Rank and select -/

/-- C60, rank: a query reads at most 12 cells, for every structure and every position. -/
theorem C60_rank_reads (rs : RsVec) (zero : Bool) (pos : Nat) :
    Probes RsCell.same 12 (fun rs => rs.rank zero pos) rs := rs.reads_rank zero pos

/-- C60, the number of cells read by a query for zeros, when there are at least `8192 * (k / 8192 + 1)` of them: it is
logarithmic in the length. -/
theorem C60_select0_reads_partial {v : BV} (h : v.WF) :
    ∃ rs, RsVec.fromBitVec v = .ok rs ∧ ∀ k, 8192 * (k / 8192 + 1) ≤ v.bits.count false →
      Probes RsCell.same (3 * Nat.log2 (v.len / 8192 + 1) + 51) (fun rs => rs.select true k) rs := by
  obtain ⟨rs, r1, r2⟩ := C60_select0_log_partial h
  obtain ⟨rs', r1', r3⟩ := C14_select_partial h
  rw [r1] at r1'; cases r1'
  refine ⟨rs, r1, fun k hk => ?_⟩
  obtain ⟨p, p1, p2⟩ := r2 k hk
  have hd : rs.select true k = .ok p := by
    obtain ⟨q, q1, q2⟩ := (r3 true k).1 (by simp only [Bool.not_true]; have := Nat.div_add_mod k 8192; have := Nat.mod_lt k (y := 8192) (by omega); omega)
    rw [q1, C14_select_unique q2 p2]
  exact Probes.mono (rs.reads_select_of_budget true k _ p p1 hd) (by omega)

/-- 8200 zeros -/
example := C60_select0_reads_partial (v := BV.fromZeros 8200) (BV.wf_fromZeros 8200)

/-- C60, the number of cells read by any query: it is logarithmic in the length, plus three times the number of super
blocks (of 8192 bits) between the result `p` and the last bit `q` before the select block of the rank. -/
theorem C60_select_reads_partial {v : BV} (h : v.WF) :
    ∃ rs, RsVec.fromBitVec v = .ok rs ∧ ∀ zero k p q, IsSelect (!zero) v.bits k p →
      ((k < 8192 ∧ q = 0) ∨ (8192 ≤ k ∧ IsSelect (!zero) v.bits (8192 * (k / 8192) - 1) q)) →
      Probes RsCell.same (3 * (p / 8192 - q / 8192) + 3 * Nat.log2 (v.len / 8192 + 1) + 27)
        (fun rs => rs.select zero k) rs := by
  obtain ⟨rs, r1, r2⟩ := C60_select_distance_partial h
  obtain ⟨rs', r1', r3⟩ := C14_select_partial h
  rw [r1] at r1'; cases r1'
  refine ⟨rs, r1, fun zero k p q hp hq => ?_⟩
  have p1 := r2 zero k p q hp hq
  have hd : rs.select zero k = .ok p := by
    obtain ⟨x, q1, q2⟩ := (r3 zero k).1 (WM.count_take_lt hp)
    rw [q1, C14_select_unique q2 hp]
  exact Probes.mono (rs.reads_select_of_budget zero k _ p p1 hd) (by omega)

example : ∃ rs, RsVec.fromBitVec ⟨[5#64], 3⟩ = .ok rs ∧ Probes RsCell.same 27 (fun rs => rs.select false 1) rs := by
  obtain ⟨rs, r1, r2⟩ := C60_select_reads_partial (v := ⟨[5#64], 3⟩) (by constructor <;> decide)
  exact ⟨rs, r1, r2 false 1 2 0 (by constructor <;> decide) (.inl ⟨by omega, rfl⟩)⟩

/-- C60, the number of cells read by any query: it is linear in the length. -/
theorem C60_select_reads_linear_partial {v : BV} (h : v.WF) :
    ∃ rs, RsVec.fromBitVec v = .ok rs ∧ ∀ zero k,
      Probes RsCell.same (3 * (v.len / 8192) + 30) (fun rs => rs.select zero k) rs := by
  obtain ⟨rs, r1, r3⟩ := C14_select_partial h
  refine ⟨rs, r1, fun zero k => ?_⟩
  obtain ⟨p, hp⟩ : ∃ p, rs.select zero k = .ok p := by
    rcases Nat.lt_or_ge k (v.bits.count (!zero)) with hk | hk
    · obtain ⟨p, p1, -⟩ := (r3 zero k).1 hk; exact ⟨p, p1⟩
    · exact ⟨_, (r3 zero k).2 hk⟩
  refine Probes.mono (rs.reads_select_of_budget zero k (v.len / 8192 + 2) p ?_ hp) (by omega)
  rw [RsVec.select_budget h r1 (Nat.le_refl _), hp]

/-- a vector with the bits 1, 0, 1 -/
example : ∃ rs, RsVec.fromBitVec ⟨[5#64], 3⟩ = .ok rs ∧ rs.select false 1 = .ok 2 ∧
    Probes RsCell.same 30 (fun rs => rs.select false 1) rs ∧ ¬ Probes RsCell.same 0 (fun rs => rs.select false 1) rs := by
  obtain ⟨rs, r1, r2⟩ := C60_select_reads_linear_partial (v := ⟨[5#64], 3⟩) (by constructor <;> decide)
  obtain ⟨rs', r1', r3⟩ := C14_select_partial (v := ⟨[5#64], 3⟩) (by constructor <;> decide)
  rw [r1] at r1'; cases r1'
  obtain ⟨p, p1, p2⟩ := (r3 false 1).1 (by decide)
  have e : p = 2 := C14_select_unique p2 (by constructor <;> decide)
  subst e
  refine ⟨rs, r1, p1, r2 false 1, ?_⟩
  rintro ⟨L, h1, h2⟩
  have h := h2 ⟨[], 0, [], [], [], 0, 0⟩ (by
    intro k hk
    rw [List.eq_nil_of_length_eq_zero (Nat.le_zero.mp h1)] at hk
    cases hk)
  simp only [p1] at h
  clear p1 r1 r2 r3 h2 h1 p2 L rs
  revert h
  decide +revert +kernel

/-! ## The wavelet matrix -/

section
open WM WM.OfWidth

/-- C72: the number of cells read by the queries except for the select queries is linear in the width of the elements, for
all matrices and all arguments. -/
theorem C72_reads (m : WM) (i j k : Nat) (symbol : BV) (u : Word) :
    (Probes WmCell.same (14 * m.bitsPer + 2) (fun m => m.getValue i) m ∧
      Probes WmCell.same (14 * m.bitsPer + 2) (fun m => m.getU64 i) m) ∧
    (Probes WmCell.same (26 * m.bitsPer + 2) (fun m => m.rank i symbol) m ∧
      Probes WmCell.same (26 * m.bitsPer + 2) (fun m => m.rankU64 i u) m ∧
      Probes WmCell.same (26 * m.bitsPer + 2) (fun m => m.rankOffset i j symbol) m ∧
      Probes WmCell.same (26 * m.bitsPer + 2) (fun m => m.rankOffsetU64 i j u) m ∧
      Probes WmCell.same (26 * m.bitsPer + 2) (fun m => m.rankRange i j symbol) m ∧
      Probes WmCell.same (26 * m.bitsPer + 2) (fun m => m.rankRangeU64 i j u) m) ∧
    (Probes WmCell.same (25 * m.bitsPer + 4) (fun m => m.quantile i j k) m ∧
      Probes WmCell.same (25 * m.bitsPer + 4) (fun m => m.quantileU64 i j k) m ∧
      Probes WmCell.same (25 * m.bitsPer + 4) (fun m => m.getSorted i) m ∧
      Probes WmCell.same (25 * m.bitsPer + 4) (fun m => m.getSortedU64 i) m ∧
      Probes WmCell.same (25 * m.bitsPer + 4) (fun m => m.rangeMin i j) m ∧
      Probes WmCell.same (25 * m.bitsPer + 4) (fun m => m.rangeMinU64 i j) m ∧
      Probes WmCell.same (25 * m.bitsPer + 4) (fun m => m.rangeMax i j) m ∧
      Probes WmCell.same (25 * m.bitsPer + 4) (fun m => m.rangeMaxU64 i j) m ∧
      Probes WmCell.same (25 * m.bitsPer + 4) (fun m => m.rangeMedian i j) m ∧
      Probes WmCell.same (25 * m.bitsPer + 4) (fun m => m.rangeMedianU64 i j) m) ∧
    Probes WmCell.same (50 * m.bitsPer + 3) (fun m => m.predecessor i j symbol) m ∧
      Probes WmCell.same (50 * m.bitsPer + 3) (fun m => m.predecessorU64 i j u) m ∧
      Probes WmCell.same (50 * m.bitsPer + 3) (fun m => m.successor i j symbol) m ∧
      Probes WmCell.same (50 * m.bitsPer + 3) (fun m => m.successorU64 i j u) m := by
  let x : OfWidth m.data.length := ⟨m, rfl⟩
  have nil : ∀ y : OfWidth m.data.length, (y.1.data = []) = (m.data.length = 0) := fun y => by
    rw [← List.length_eq_zero_iff, y.2]
  have hr := fun (s e : Nat) (read : Nat → R Word) => reads_some some (reads_rankGen read x s e)
  have hq : ∀ s e k, Probes same (25 * m.data.length + 2) (fun y : OfWidth m.data.length => y.1.quantile s e k) x := by
    intro s e k
    unfold WM.quantile quantileUnchecked
    simp only [bitsPer_eq]
    refine reads_guard (fun l => s ≥ l ∨ e > l) ?_
    refine Probes.mono (n := 0 + (25 * m.data.length + 1)) ?_ (by omega)
    refine Probes.bind (Probes.const _) fun c _ => ?_
    refine Probes.iteConst (fun _ => Probes.mono (Probes.const _) (by omega)) fun _ => ?_
    exact reads_some some (reads_partialQuantile x s e k 0 _)
  have hqu : ∀ s e k, Probes same (25 * m.data.length + 2) (fun y : OfWidth m.data.length => y.1.quantileU64 s e k) x := by
    intro s e k
    unfold WM.quantileU64 quantileU64Unchecked
    simp only [bitsPer_eq]
    refine reads_guard (fun l => s ≥ l ∨ e > l ∨ m.data.length > 64) ?_
    refine Probes.mono (n := 0 + (25 * m.data.length + 1)) ?_ (by omega)
    refine Probes.bind (Probes.const _) fun c _ => ?_
    refine Probes.iteConst (fun _ => Probes.mono (Probes.const _) (by omega)) fun _ => ?_
    exact reads_some some (reads_partialQuantileU64 x s e k 0 _)
  have up : ∀ {α : Type} {c d : Nat} {f : WM → α}, Probes same c (fun y : OfWidth m.data.length => f y.1) x →
      c + 1 ≤ d → Probes WmCell.same d f m := fun h hd => Probes.mono (lift m h) hd
  refine ⟨⟨up (c := 14 * m.data.length + 1) ?_ (Nat.le_refl _), up (c := 14 * m.data.length + 1) ?_ (Nat.le_refl _)⟩,
    ⟨up (c := 26 * m.data.length + 1) ?_ (Nat.le_refl _), up (c := 26 * m.data.length + 1) ?_ (Nat.le_refl _),
      up (c := 26 * m.data.length + 1) ?_ (Nat.le_refl _), up (c := 26 * m.data.length + 1) ?_ (Nat.le_refl _),
      up (c := 26 * m.data.length + 1) ?_ (Nat.le_refl _), up (c := 26 * m.data.length + 1) ?_ (Nat.le_refl _)⟩,
    ⟨up (hq i j k) (Nat.le_succ _), up (hqu i j k) (Nat.le_succ _), up (c := 25 * m.data.length + 3) ?_ (Nat.le_refl _),
      up (c := 25 * m.data.length + 3) ?_ (Nat.le_refl _), up (hq i j 0) (Nat.le_succ _), up (hqu i j 0) (Nat.le_succ _),
      up (c := 25 * m.data.length + 2) ?_ (Nat.le_succ _), up (c := 25 * m.data.length + 2) ?_ (Nat.le_succ _),
      up (c := 25 * m.data.length + 2) ?_ (Nat.le_succ _), up (c := 25 * m.data.length + 3) ?_ (Nat.le_refl _)⟩,
    up (c := 50 * m.data.length + 2) ?_ (Nat.le_refl _), up (c := 50 * m.data.length + 2) ?_ (Nat.le_refl _),
    up (c := 50 * m.data.length + 2) ?_ (Nat.le_refl _), up (c := 50 * m.data.length + 2) ?_ (Nat.le_refl _)⟩
  · unfold WM.getValue getValueUnchecked
    simp only [nil, bitsPer_eq]
    refine reads_guard (fun l => m.data.length = 0 ∨ i ≥ l) (reads_some some ?_)
    refine Probes.mono (n := 0 + 14 * m.data.length) ?_ (by omega)
    refine Probes.bind (Probes.const _) fun l _ => ?_
    exact reads_some (fun t : BV × Nat => t.1)
      (by simpa using reads_reconstruct writeDown x m.data.length 0 i (BV.fromZeros m.data.length, l) (by omega))
  · unfold WM.getU64 getU64Unchecked
    simp only [nil, bitsPer_eq]
    refine reads_guard (fun l => m.data.length > 64 ∨ m.data.length = 0 ∨ i ≥ l) (reads_some some ?_)
    simpa using reads_reconstruct pushBit x m.data.length 0 i _ (by omega)
  · unfold WM.rank rankUnchecked rankRangeUnchecked
    simp only [bitsPer_eq]
    exact reads_guard (fun l => i > l ∨ symbol.len ≠ m.data.length) (hr _ _ _)
  · unfold WM.rankU64 rankU64Unchecked rankRangeU64Unchecked
    simp only [bitsPer_eq]
    exact reads_guard (fun l => i > l ∨ m.data.length > 64) (hr _ _ _)
  · unfold WM.rankOffset rankOffsetUnchecked rankRangeUnchecked
    simp only [bitsPer_eq]
    exact reads_guard (fun l => i > j ∨ i ≥ l ∨ j > l ∨ symbol.len ≠ m.data.length) (hr _ _ _)
  · unfold WM.rankOffsetU64 rankOffsetU64Unchecked rankRangeU64Unchecked
    simp only [bitsPer_eq]
    exact reads_guard (fun l => i > j ∨ i ≥ l ∨ j > l ∨ m.data.length > 64) (hr _ _ _)
  · unfold WM.rankRange rankRangeUnchecked
    simp only [bitsPer_eq]
    exact reads_guard (fun l => i ≥ l ∨ j > l ∨ symbol.len ≠ m.data.length) (hr _ _ _)
  · unfold WM.rankRangeU64 rankRangeU64Unchecked
    simp only [bitsPer_eq]
    exact reads_guard (fun l => i ≥ l ∨ j > l ∨ m.data.length > 64) (hr _ _ _)
  · unfold WM.getSorted getSortedUnchecked quantileUnchecked
    simp only [bitsPer_eq]
    refine reads_guard (fun l => i ≥ l) (reads_some some ?_)
    refine Probes.mono (n := 1 + (25 * m.data.length + 1)) ?_ (by omega)
    exact Probes.seq (p := fun y : OfWidth m.data.length => y.1.len)
      (fun l y => y.1.partialQuantile 0 l i 0 (BV.fromZeros m.data.length)) (reads_len x)
      (reads_partialQuantile x 0 _ i 0 _)
  · unfold WM.getSortedU64 getSortedU64Unchecked quantileU64Unchecked
    simp only [bitsPer_eq]
    refine reads_guard (fun l => i ≥ l ∨ m.data.length > 64) (reads_some some ?_)
    refine Probes.mono (n := 1 + (25 * m.data.length + 1)) ?_ (by omega)
    exact Probes.seq (p := fun y : OfWidth m.data.length => y.1.len)
      (fun l y => y.1.partialQuantileU64 0 l i 0 0#64) (reads_len x)
      (reads_partialQuantileU64 x 0 _ i 0 _)
  · unfold WM.rangeMax
    exact Probes.iteConst (fun _ => Probes.mono (Probes.const _) (by omega)) fun _ => hq _ _ _
  · unfold WM.rangeMaxU64
    exact Probes.iteConst (fun _ => Probes.mono (Probes.const _) (by omega)) fun _ => hqu _ _ _
  · unfold WM.rangeMedian
    exact Probes.iteConst (fun _ => Probes.mono (Probes.const _) (by omega)) fun _ => hq _ _ _
  · unfold WM.rangeMedianU64
    simp only [bitsPer_eq]
    exact reads_guard (fun l => j ≤ i ∨ m.data.length > 64 ∨ j > l) (hqu _ _ _)
  · unfold WM.predecessor WM.isEmpty
    simp only [bitsPer_eq]
    refine reads_guard (fun l => symbol.len ≠ m.data.length ∨ j ≤ i ∨ (l == 0) = true ∨ j > l) ?_
    exact Probes.mono (by simpa using reads_predLoop (opsRead_bv x symbol) m.data.length 0 i j _ _ (by omega)) (by omega)
  · unfold WM.predecessorU64 WM.isEmpty
    simp only [bitsPer_eq]
    refine reads_guard (fun l => m.data.length > 64 ∨ j ≤ i ∨ (l == 0) = true ∨ j > l) ?_
    exact Probes.mono (by simpa using reads_predLoop (opsRead_u64 x u) m.data.length 0 i j _ _ (by omega)) (by omega)
  · unfold WM.successor WM.isEmpty
    simp only [bitsPer_eq]
    refine reads_guard (fun l => symbol.len ≠ m.data.length ∨ j ≤ i ∨ (l == 0) = true ∨ j > l) ?_
    exact Probes.mono (by simpa using reads_succLoop (opsRead_bv x symbol) m.data.length 0 i j _ _ (by omega)) (by omega)
  · unfold WM.successorU64 WM.isEmpty
    simp only [bitsPer_eq]
    refine reads_guard (fun l => m.data.length > 64 ∨ j ≤ i ∨ (l == 0) = true ∨ j > l) ?_
    exact Probes.mono (by simpa using reads_succLoop (opsRead_u64 x u) m.data.length 0 i j _ _ (by omega)) (by omega)

theorem suffices_of {m : WM} {k : Nat} {vals : List Nat} (h : Built m k vals) : Suffices m (vals.length / 8192 + 2) := by
  obtain ⟨vs, v1, v2, v3⟩ := built_vecs h
  intro rs hr z r
  obtain ⟨v, w1, w2, w3⟩ := level_mem v1 (goodV_len v3) rs hr
  obtain ⟨rs', r1, r3⟩ := C14_select_partial w1
  rw [w3] at r1; cases r1
  obtain ⟨p, hp⟩ : ∃ p, rs.select z r = .ok p := by
    rcases Nat.lt_or_ge r (v.bits.count (!z)) with hk | hk
    · obtain ⟨p, p1, -⟩ := (r3 z r).1 hk; exact ⟨p, p1⟩
    · exact ⟨_, (r3 z r).2 hk⟩
  exact ⟨p, by rw [RsVec.select_budget w1 w3 (by omega), hp], hp⟩

/-- C72: the number of cells read by the select queries is linear in the width of the elements times one more than the
number of blocks of 8192 elements. It should not depend on the length (`C72_select_defect`). -/
theorem C72_select_reads_partial {m : WM} {k : Nat} {vals : List Nat} (h : Built m k vals) (offset rank : Nat) (symbol : BV)
    (u : Word) {c : Nat} (hc : c = (3 * (vals.length / 8192) + 44) * m.bitsPer + 3) :
    Probes WmCell.same c (fun m => m.select rank symbol) m ∧ Probes WmCell.same c (fun m => m.selectU64 rank u) m ∧
    Probes WmCell.same c (fun m => m.selectOffset offset rank symbol) m ∧
    Probes WmCell.same c (fun m => m.selectOffsetU64 offset rank u) m := by
  subst hc
  let x : OfWidth m.data.length := ⟨m, rfl⟩
  have hs := suffices_of h
  have inside : ∀ (p : Nat), Probes same 1 (fun y : OfWidth m.data.length => (pure (y.1.ifInside p) : R (Option Nat))) x := by
    intro p
    exact Probes.map (fun l => (pure (if p < l then some p else none) : R (Option Nat))) (reads_len x)
  have hg : ∀ (read : Nat → R Word) (o r : Nat), Probes same ((3 * (vals.length / 8192) + 44) * m.data.length + 1)
      (fun y : OfWidth m.data.length => do
        let p ← y.1.selectGen read o r
        pure (y.1.ifInside p)) x := by
    intro read o r
    refine Probes.bind (Probes.mono (reads_selectGen read x hs o r) ?_) fun p _ => inside p
    exact Nat.mul_le_mul_right _ (by omega)
  have up : ∀ {α : Type} {c : Nat} {f : WM → α}, Probes same c (fun y : OfWidth m.data.length => f y.1) x →
      c ≤ (3 * (vals.length / 8192) + 44) * m.data.length + 2 →
      Probes WmCell.same ((3 * (vals.length / 8192) + 44) * m.bitsPer + 3) f m :=
    fun h hd => Probes.mono (lift m h) (Nat.succ_le_succ hd)
  refine ⟨up ?_ (Nat.le_succ _), up ?_ (Nat.le_succ _), up ?_ (Nat.le_refl _), up ?_ (Nat.le_refl _)⟩
  · unfold WM.select WM.selectUnchecked WM.selectOffsetUnchecked
    simp only [bitsPer_eq]
    exact Probes.iteConst (fun _ => hg _ _ _) fun _ => Probes.mono (Probes.const _) (by omega)
  · unfold WM.selectU64 WM.selectU64Unchecked WM.selectOffsetU64Unchecked
    simp only [bitsPer_eq]
    exact Probes.iteConst (fun _ => Probes.mono (Probes.const _) (by omega)) fun _ => hg _ _ _
  · unfold WM.selectOffset WM.selectOffsetUnchecked
    simp only [bitsPer_eq]
    exact reads_guard (fun l => offset ≥ l ∨ symbol.len ≠ m.data.length) (hg _ _ _)
  · unfold WM.selectOffsetU64 WM.selectOffsetU64Unchecked
    simp only [bitsPer_eq]
    exact reads_guard (fun l => offset ≥ l ∨ m.data.length > 64) (hg _ _ _)

example : ∃ m, fromSlice [5#64, 1#64, 7#64, 1#64, 4#64] 3 = .ok m ∧
    Probes WmCell.same (44 * m.bitsPer + 3) (fun m => m.selectU64 1 1#64) m := by
  obtain ⟨m, h1, h2⟩ := C31_from_slice (k := 3) (by omega) (by omega) [5#64, 1#64, 7#64, 1#64, 4#64]
  exact ⟨m, h1, (C72_select_reads_partial h2 0 1 BV.new 1#64 rfl).2.1⟩

end

/-! ## Balanced parenthesis trees -/

section
open BpTree MMT

theorem blocksIn_of {t : BpTree} {bs : Nat} {v : BV} (h : Rep t bs v) : t.BlocksIn bs := by
  intro start rel b e hb
  obtain ⟨K, L, hk⟩ := h.mmt
  have h1 := MMT.bwdSearch_lt (MMT.firstLeaf_eq hk) hb
  have h2 := hk.len
  have h3 := hk.last
  have h4 := h.vec.2.2
  rw [BV.length_bits] at h3
  have : b * bs ≤ (L - 1) * bs := Nat.mul_le_mul_right _ (by omega)
  omega

/-- C62: the number of cells read by the queries on a tree is constant, or logarithmic in the number of blocks. `node_handle` is
missing: it is not logarithmic (`C62_node_handle_defect`). -/
theorem C62_reads_partial {v : BV} (hw : v.WF) {bs : Nat} (hbs : 0 < bs) (h0 : 0 < v.len)
    (hl : v.len ≤ 9223372036854775807) :
    ∃ t, BpTree.fromBitVector bs v = .ok t ∧ (∀ k c, c = 8 * bs + 10 * Nat.log2 ((v.len + bs - 1) / bs) + 61 →
      (∀ i r, Probes TreeCell.same c (fun t => t.fwdSearch bs k i r) t ∧
        Probes TreeCell.same c (fun t => t.bwdSearch bs k i r) t) ∧
      (∀ i, Probes TreeCell.same c (fun t => t.close bs k i) t ∧ Probes TreeCell.same c (fun t => t.opening bs k i) t ∧
        Probes TreeCell.same c (fun t => t.enclose bs k i) t ∧ Probes TreeCell.same c (fun t => t.parent bs k i) t ∧
        Probes TreeCell.same c (fun t => t.nextSibling bs k i) t ∧
        Probes TreeCell.same c (fun t => t.previousSibling bs k i) t ∧
        Probes TreeCell.same c (fun t => t.lastChild bs k i) t ∧
        Probes TreeCell.same c (fun t => t.levelNext bs k i) t ∧
        Probes TreeCell.same c (fun t => t.levelPrev bs k i) t ∧
        Probes TreeCell.same c (fun t => t.subtreeSize bs k i) t) ∧
      (∀ i j, Probes TreeCell.same c (fun t => t.isAncestor bs k i j) t) ∧
      (∀ i l, Probes TreeCell.same c (fun t => t.levelAncestor bs k i l) t) ∧
      (∀ l, Probes TreeCell.same c (fun t => t.levelLeftmost bs k l) t ∧
        Probes TreeCell.same c (fun t => t.levelRightmost bs k l) t)) ∧
      ∀ i, Probes TreeCell.same 28 (fun t => t.excess i) t ∧ Probes TreeCell.same 28 (fun t => t.depth i) t ∧
        Probes TreeCell.same 28 (fun t => t.firstChild i) t ∧ Probes TreeCell.same 28 (fun t => t.isLeaf i) t ∧
        Probes TreeCell.same 28 (fun t => t.nodeIndex i) t ∧ Probes TreeCell.same 28 (fun t => t.root) t ∧
        Probes TreeCell.same 28 (fun t => t.size) t := by
  obtain ⟨t, t1, t2⟩ := BpTree.fromBitVector_rep hw hbs h0 hl
  refine ⟨t, t1, fun k c hc => ?_, fun i => ?_⟩
  all_goals
    let x : OfSize t.mmt.nodes.length := ⟨t, rfl⟩
    have hb : x.1.mmt.Enough _ := enough_log t2
    have hL : x.1.BlocksIn bs := blocksIn_of t2
    have up : ∀ {α : Type} {c d : Nat} {f : BpTree → α},
      Probes sameIn c (fun y : OfSize t.mmt.nodes.length => f y.1) x → c + 1 ≤ d → Probes TreeCell.same d f t :=
      fun h hd => Probes.mono (lift t h) hd
  · subst hc
    exact ⟨fun i r => ⟨up (reads_fwdSearch x hb bs k i r) (by omega), up (reads_bwdSearch x hb hL k i r) (by omega)⟩,
      fun i => ⟨up (reads_close x hb k i) (by omega), up (reads_opening x hb hL k i) (by omega),
        up (reads_enclose x hb hL k i) (by omega), up (reads_parent x hb hL k i) (by omega),
        up (reads_nextSibling x hb k i) (by omega), up (reads_previousSibling x hb hL k i) (by omega),
        up (reads_lastChild x hb hL k i) (by omega), up (reads_levelNext x hb k i) (by omega),
        up (reads_levelPrev x hb hL k i) (by omega), up (reads_subtreeSize x hb k i) (by omega)⟩,
      fun i j => up (reads_isAncestor x hb k i j) (by omega),
      fun i l => up (reads_levelAncestor x hb hL k i l) (by omega),
      fun l => ⟨up (reads_levelLeftmost x hb k l) (by omega), up (reads_levelRightmost x hb hL k l) (by omega)⟩⟩
  · exact ⟨up (reads_excess x i) (by omega), up (reads_depth x i) (by omega), up (reads_firstChild x i) (by omega),
      up (reads_isLeaf x i) (by omega), up (reads_nodeIndex x i) (by omega), up (reads_root x) (by omega),
      up (reads_size x) (by omega)⟩

/-- the tree `((()))` with blocks of two parentheses -/
example : ∃ t, BpTree.fromBitVector 2 ⟨[7#64], 6⟩ = .ok t ∧
    Probes TreeCell.same 87 (fun t => t.close 2 .u16 0) t := by
  obtain ⟨t, t1, t2, -⟩ := C62_reads_partial (v := ⟨[7#64], 6⟩) (by constructor <;> decide) (bs := 2) (by omega) (by decide)
    (by decide)
  exact ⟨t, t1, ((t2 .u16 87 (by decide)).2.1 0).1⟩

end

end Vers
