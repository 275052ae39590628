import Verif.Proofs.Space
import Verif.Props.EliasFano

/-!
# C55-C59: the size of the structures

`heapSize` is the number of bytes the structure reports. The bounds are in bits (`8 * heapSize`), because the
documentation states them so.
-/

set_option linter.unusedSimpArgs false

namespace Vers

variable [Profile]
open Spec

/-! ## C55: bit vectors -/

omit [Profile] in
/-- A bit vector takes its bits, rounded up to whole 64-bit limbs. -/
theorem C55_bit_vec {v : BV} (h : v.WF) : v.len ≤ 8 * v.heapSize ∧ 8 * v.heapSize < v.len + 64 := by
  have hd : v.data.length = (v.len + 63) / 64 := h
  unfold BV.heapSize
  omega

example := C55_bit_vec (v := BV.fromOnes 70) (by decide)

/-- The exact size of the rank/select vector: the limbs, 2 bytes for each 512 bits, 8 bytes for each 8192
bits, and 16 bytes for each 8192 zeros or ones (whichever there are more of, where the unused bits of the last
limb count as ones), plus two entries. -/
theorem C55_rs_vec {v : BV} (h : v.WF) :
    ∃ rs, RsVec.fromBitVec v = .ok rs ∧
      rs.heapSize = 8 * ((v.len + 63) / 64) + 2 * ((v.len + 511) / 512) + 8 * ((v.len + 8191) / 8192) +
        16 * (max (v.bits.count false / 8192) ((64 * ((v.len + 63) / 64) - v.bits.count false) / 8192) + 2) := by
  obtain ⟨rs, h1, _⟩ := fromBitVec_inv h
  exact ⟨rs, h1, heapSize_eq h h1⟩

example := C55_rs_vec (v := BV.fromOnes 70) (by decide)

/-- The documented overhead: 28 bits for each block of 512 bits, up to a constant. -/
theorem C55_rs_vec_overhead {v : BV} (h : v.WF) :
    ∃ rs, RsVec.fromBitVec v = .ok rs ∧ v.len ≤ 8 * rs.heapSize ∧
      8 * rs.heapSize ≤ v.len + 28 * ((v.len + 511) / 512) + 379 := by
  obtain ⟨rs, h1, _⟩ := fromBitVec_inv h
  refine ⟨rs, h1, ?_, heapSize_le h h1⟩
  rw [heapSize_eq h h1]; omega

example : (⟨[0xF0F0#64, 3#64], 70⟩ : BV).WF := rfl

example : (do
    let rs ← RsVec.fromBitVec (⟨[0xF0F0#64, 3#64], 70⟩ : BV)
    pure rs.heapSize) = .ok 58 := by decide +revert +kernel

/-! ## C56: Elias-Fano -/

omit [Profile] in
theorem ceilLog2_le (n : Nat) : n ≤ 2 ^ ceilLog2 n := by
  unfold ceilLog2
  split
  · simpa using by assumption
  · have := (Nat.log2_lt (n := n - 1) (k := (n - 1).log2 + 1) (by omega)).mp (by omega)
    omega

omit [Profile] in
theorem ceilLog2_lt {n : Nat} (h : 2 ≤ n) : 2 ^ ceilLog2 n < 2 * n := by
  unfold ceilLog2
  rw [if_neg (by omega)]
  have := (Nat.le_log2 (n := n - 1) (k := (n - 1).log2) (by omega)).mp (Nat.le_refl _)
  rw [Nat.pow_succ]; omega

omit [Profile] in
theorem ceilLog2_le_of {n k : Nat} (h : n ≤ 2 ^ k) : ceilLog2 n ≤ k := by
  unfold ceilLog2
  split
  · omega
  · have hp : 0 < 2 ^ k := Nat.pos_of_ne_zero (by simp)
    have := (Nat.log2_lt (n := n - 1) (k := k) (by omega)).mpr (by omega)
    omega

omit [Profile] in
theorem lt_ceilLog2_of {n k : Nat} (h : 2 ^ k < n) : k < ceilLog2 n := by
  rcases Nat.lt_or_ge k (ceilLog2 n) with h1 | h1
  · exact h1
  · have := ceilLog2_le n
    have := Nat.pow_le_pow_right (n := 2) (by omega) h1
    omega

omit [Profile] in
theorem ceilLog2_mono {a b : Nat} (h : a ≤ b) : ceilLog2 a ≤ ceilLog2 b :=
  ceilLog2_le_of (Nat.le_trans h (ceilLog2_le b))

omit [Profile] in
theorem max_ceilLog2 (a b : Nat) : Nat.max (ceilLog2 a) (ceilLog2 b) = ceilLog2 (Nat.max a b) := by
  rcases Nat.le_total a b with h | h
  · show max _ _ = ceilLog2 (max _ _)
    rw [Nat.max_eq_right h, Nat.max_eq_right (ceilLog2_mono h)]
  · show max _ _ = ceilLog2 (max _ _)
    rw [Nat.max_eq_left h, Nat.max_eq_left (ceilLog2_mono h)]

omit [Profile] in
theorem efD_last {data : List Word} {a z : Word} (ha : data.head? = some a) (hz : data.getLast? = some z) :
    efD data (data.length - 1) = z.toNat - a.toNat := by
  unfold efD
  rw [← List.getLast?_eq_getElem?, ← List.head?_eq_getElem?, ha, hz]
  rfl

/-- Let `n` be the number of elements and `u` the distance between the first and the last. If some power of
two separates `n` from `max u (n + 2)`, the vector takes `n * w + 3 * n` bits plus the overhead of the
rank/select structure and a constant, where `w < log2 (max u (n + 2) / n) + 1`.
Missing for the full property: denser sequences, for which the size is that of the slice or more, see
`C56_dense_defect`. For the floating point logarithm see `C56_space_float_partial`. -/
theorem C56_space_partial {data : List Word} (hs : Sorted data) (hl : data.length < 2 ^ 60) {a z : Word}
    (ha : data.head? = some a) (hz : data.getLast? = some z) {k : Nat} (h1 : max data.length 2 ≤ 2 ^ k)
    (h2 : 2 ^ k < max (z.toNat - a.toNat) (data.length + 2)) :
    ∃ ef w, EF.fromSlice ceilLog2 data = .ok ef ∧
      data.length * 2 ^ w < 2 * max (z.toNat - a.toNat) (data.length + 2) ∧
      8 * ef.heapSize ≤ data.length * w + 3 * data.length + 28 * ((3 * data.length + 514) / 512) + 445 := by
  have hne : data ≠ [] := by rintro rfl; cases ha
  have hn : 0 < data.length := List.length_pos_iff.mpr hne
  obtain ⟨ef, e1, _⟩ := fromSlice_inv logLike_ceilLog2 hs hne hl
  obtain ⟨w, u, w1, w2, w3, u1, u2, u3, l1, _⟩ := fromSlice_parts logLike_ceilLog2 hne e1 hs hl
  rw [efD_last ha hz] at w1 u2
  rw [max_ceilLog2] at w1
  have hm : Nat.max (Nat.max (z.toNat - a.toNat) 2) (data.length + 2) =
      max (z.toNat - a.toNat) (data.length + 2) := by
    show max (max _ 2) _ = _; omega
  rw [hm] at w1
  have hn2 : Nat.max data.length 2 = max data.length 2 := rfl
  rw [hn2] at w1
  generalize hU : z.toNat - a.toNat = U at *
  generalize hM : max U (data.length + 2) = M at *
  generalize hN : max data.length 2 = N at *
  have c1 : ceilLog2 N ≤ k := ceilLog2_le_of h1
  have c2 : k < ceilLog2 M := lt_ceilLog2_of h2
  have hw1 : 1 ≤ w := by omega
  have p1 := ceilLog2_le N
  have p2 := ceilLog2_lt (n := N) (by omega)
  have p3 := ceilLog2_le M
  have p4 := ceilLog2_lt (n := M) (by omega)
  have hp : 2 ^ ceilLog2 M = 2 ^ ceilLog2 N * 2 ^ w := by rw [w1, Nat.pow_add, Nat.mul_comm]
  have hq : 0 < 2 ^ w := Nat.pos_of_ne_zero (by simp)
  refine ⟨ef, w, e1, ?_, ?_⟩
  · have : data.length * 2 ^ w ≤ 2 ^ ceilLog2 N * 2 ^ w := Nat.mul_le_mul_right _ (by omega)
    omega
  · obtain ⟨l2, l3⟩ := l1 hw1
    have hlo := (C55_bit_vec l2).2
    have hup := heapSize_le u1 u3
    have hdiv : U / 2 ^ w ≤ 2 ^ ceilLog2 N := by
      apply Nat.div_le_of_le_mul
      rw [Nat.mul_comm, ← hp]; omega
    rw [l3] at hlo
    have hu : u.len ≤ 3 * data.length + 3 := by rw [u2]; omega
    have hl : (u.len + 511) / 512 ≤ (3 * data.length + 514) / 512 := Nat.div_le_div_right (by omega)
    unfold EF.heapSize
    generalize data.length * w = nw at *
    omega

/-- Defect: if `n + 2` elements and the distance between the first and the last fit below the next power of
two (for example the numbers from 0 to 9), the lower part has width 0 and the builder nevertheless
appends a full limb for each element: the "compressed" vector is larger than the slice of `u64`. -/
theorem C56_dense_defect {data : List Word} (hs : Sorted data) (hl : data.length < 2 ^ 60) {a z : Word}
    (ha : data.head? = some a) (hz : data.getLast? = some z) {k : Nat} (hk : 1 ≤ k) (h1 : 2 ^ k < data.length)
    (h2 : data.length + 2 ≤ 2 ^ (k + 1)) (h3 : z.toNat - a.toNat ≤ 2 ^ (k + 1)) :
    ∃ ef, EF.fromSlice ceilLog2 data = .ok ef ∧ 8 * data.length < ef.heapSize := by
  have hne : data ≠ [] := by rintro rfl; cases ha
  have hn : 0 < data.length := List.length_pos_iff.mpr hne
  obtain ⟨ef, e1, _⟩ := fromSlice_inv logLike_ceilLog2 hs hne hl
  obtain ⟨w, u, w1, w2, w3, u1, u2, u3, _, l1, _⟩ := fromSlice_parts logLike_ceilLog2 hne e1 hs hl
  rw [efD_last ha hz, max_ceilLog2] at w1
  have hk2 : 2 ≤ 2 ^ k := by
    have := Nat.pow_le_pow_right (n := 2) (by omega) hk
    omega
  have c1 : k < ceilLog2 (Nat.max data.length 2) := lt_ceilLog2_of (by show _ < max _ _; omega)
  have c2 : ceilLog2 (Nat.max (Nat.max (z.toNat - a.toNat) 2) (data.length + 2)) ≤ k + 1 :=
    ceilLog2_le_of (by show max (max _ _) _ ≤ _; omega)
  have hw : w = 0 := by omega
  refine ⟨ef, e1, ?_⟩
  have := heapSize_eq u1 u3
  unfold EF.heapSize BV.heapSize
  rw [(l1 hw).1]
  omega

example : Sorted efExample ∧ efExample.head? = some 5#64 ∧ efExample.getLast? = some 1000000#64 ∧
    max efExample.length 2 ≤ 2 ^ 3 ∧ 2 ^ 3 < max ((1000000#64).toNat - (5#64).toNat) (efExample.length + 2) :=
  ⟨by simp [Sorted, efExample], rfl, rfl, by decide, by decide⟩

/-- the numbers from 0 to 9 -/
example : ∃ ef, EF.fromSlice ceilLog2 ((List.range 10).map (BitVec.ofNat 64)) = .ok ef ∧ 80 < ef.heapSize :=
  C56_dense_defect (data := (List.range 10).map (BitVec.ofNat 64)) (k := 3) (a := 0#64) (z := 9#64)
    (by unfold Sorted; decide) (by decide) rfl rfl (by omega) (by decide) (by decide) (by decide)

/-- The same defect of the sparse vector, the positions of which are an Elias-Fano vector: a vector whose set
bits are dense takes more than 64 bits for each of them. -/
theorem C56_sparse_dense_defect {input : List Word} {len : Word} {s : Sparse}
    (hs : Sorted input) (h : Sparse.new ceilLog2 input len = .ok s) (hl : input.length < 2 ^ 60) {a z : Word}
    (ha : input.head? = some a) (hz : input.getLast? = some z) {k : Nat} (hk : 1 ≤ k) (h1 : 2 ^ k < input.length)
    (h2 : input.length + 2 ≤ 2 ^ (k + 1)) (h3 : z.toNat - a.toNat ≤ 2 ^ (k + 1)) :
    8 * input.length < s.heapSize := by
  unfold Sparse.new at h
  obtain ⟨_, g1, h⟩ := bind_eq_ok.mp h
  obtain ⟨_, _, h⟩ := bind_eq_ok.mp h
  obtain ⟨ef, g2, h⟩ := bind_eq_ok.mp h
  cases h
  obtain ⟨ef', e1, e2⟩ := C56_dense_defect hs hl ha hz hk h1 h2 h3
  rw [g2] at e1
  cases e1
  exact e2

/-- The bound for the sparse vector with `n` set bits.
Missing for the full property: see `C56_sparse_dense_defect`. -/
theorem C56_sparse_partial {input : List Word} {len : Word} {s : Sparse}
    (hs : Sorted input) (h : Sparse.new ceilLog2 input len = .ok s) (hl : input.length < 2 ^ 60) {a z : Word}
    (ha : input.head? = some a) (hz : input.getLast? = some z) {k : Nat} (h1 : max input.length 2 ≤ 2 ^ k)
    (h2 : 2 ^ k < max (z.toNat - a.toNat) (input.length + 2)) :
    ∃ w, input.length * 2 ^ w < 2 * max (z.toNat - a.toNat) (input.length + 2) ∧
      8 * s.heapSize ≤ input.length * w + 3 * input.length + 28 * ((3 * input.length + 514) / 512) + 445 := by
  unfold Sparse.new at h
  obtain ⟨_, g1, h⟩ := bind_eq_ok.mp h
  obtain ⟨_, _, h⟩ := bind_eq_ok.mp h
  obtain ⟨ef, g2, h⟩ := bind_eq_ok.mp h
  cases h
  obtain ⟨ef', w, e1, e2, e3⟩ := C56_space_partial hs hl ha hz h1 h2
  rw [g2] at e1
  cases e1
  exact ⟨w, e2, e3⟩

example : (do
    let s ← Sparse.new ceilLog2 ((List.range 10).map (BitVec.ofNat 64)) 10#64
    pure s.heapSize) = .ok 130 := by decide +revert +kernel

/-! ## C57: range minimum structures -/

/-- `n` elements of 8 bytes and `n * (⌈log2 n⌉ + 1)` entries of 4 bytes. -/
theorem C57_binary {data : List Word} (hlen : data.length < 2 ^ 32) :
    ∃ s, BinRmq.fromVec data = .ok s ∧
      s.heapSize = 8 * data.length + 4 * (data.length * (ceilLog2 data.length + 1)) := by
  obtain ⟨s, s1, s2⟩ := BinRmq.fromVec_ok hlen
  refine ⟨s, s1, ?_⟩
  unfold BinRmq.heapSize
  rw [s2.data_eq, s2.cols.1]
  show _ = 8 * data.length + 4 * (data.length * (log2Ceil data.length + 1))
  omega

/-- With `b = ⌈n / 128⌉` blocks: the elements, 33 bytes for each block, and a binary structure over the `b`
minima. -/
theorem C57_fast {data : List Word} (hlen : data.length ≤ 2 ^ 39 - 128) :
    ∃ s, FastRmq.fromVec data = .ok s ∧
      s.heapSize = 8 * data.length + 41 * ((data.length + 127) / 128) +
        4 * ((data.length + 127) / 128 * (ceilLog2 ((data.length + 127) / 128) + 1)) := by
  obtain ⟨s, s1, s2⟩ := FastRmq.fromVec_ok hlen
  refine ⟨s, s1, ?_⟩
  obtain ⟨bs, b1, b2, b3, b4, _⟩ := s2.blk
  unfold FastRmq.heapSize BinRmq.heapSize
  rw [s2.data_eq, b2, b3, b4.data_eq, b4.cols.1]
  simp only [List.length_map, b1]
  show _ = 8 * data.length + 41 * ((data.length + 127) / 128) +
        4 * ((data.length + 127) / 128 * (log2Ceil ((data.length + 127) / 128) + 1))
  omega

example : (do
    let s ← BinRmq.fromVec [4#64, 10#64, 3#64, 11#64, 2#64, 12#64]
    pure s.heapSize) = .ok 144 := by decide +revert +kernel

example : (do
    let s ← FastRmq.fromVec [4#64, 10#64, 3#64, 11#64, 2#64, 12#64]
    pure s.heapSize) = .ok 93 := by decide +revert +kernel

/-! ## C58: wavelet matrix -/

/-- A matrix of `n` elements of `k` bits takes `n * k` bits plus the rank/select overhead of each level. -/
theorem C58_space {m : WM} {k : Nat} {vals : List Nat} (h : WM.Built m k vals) :
    k * vals.length ≤ 8 * m.heapSize ∧
    8 * m.heapSize ≤ k * (vals.length + 28 * ((vals.length + 511) / 512) + 379) := by
  obtain ⟨vs, v1, v2, v3⟩ := WM.built_vecs h
  have hb := WM.heapSize_levels v1 (WM.goodV_len v3) rfl
  have hlo := WM.heapSize_levels_ge v1 (WM.goodV_len v3)
  rw [v2] at hb hlo
  exact ⟨hlo, hb⟩

example : ∃ m, WM.fromSlice [5#64, 1#64, 7#64, 1#64, 4#64] 3 = .ok m ∧ m.heapSize = 150 :=
  ⟨_, rfl, by decide +kernel⟩

/-! ## C59: parenthesis tree -/

/-- The tree takes the rank/select vector of its parentheses and at most three nodes of 24 bytes for each
block of `bs` bits.
Missing for the full property: the extra space is not the documented fraction, see `C59_factor_defect`. -/
theorem C59_space_partial {v : BV} (hw : v.WF) {bs : Nat} (hbs : 0 < bs) (h0 : 0 < v.len)
    (hl : v.len ≤ 9223372036854775807) :
    ∃ t, BpTree.fromBitVector bs v = .ok t ∧
      8 * t.heapSize ≤ v.len + 28 * ((v.len + 511) / 512) + 379 + 576 * ((v.len + bs - 1) / bs) := by
  obtain ⟨t, t1, t2⟩ := BpTree.fromBitVector_rep hw hbs h0 hl
  refine ⟨t, t1, ?_⟩
  obtain ⟨K, L, hk⟩ := t2.mmt
  have hv := heapSize_le hw (BpTree.fromBitVector_vec t1)
  have hn := BpTree.mmt_nodes_le hk
  have hL := BpTree.mmt_leaves hk
  rw [BV.length_bits] at hL
  unfold BpTree.heapSize MMT.heapSize
  rw [hL] at hn
  omega

/-- Defect: the extra space is documented as a fraction of the number of nodes. With the default block size,
the min-max tree alone takes more than one bit for each node, for every tree. -/
theorem C59_factor_defect {v : BV} (hw : v.WF) (h0 : 0 < v.len) (hl : v.len ≤ 9223372036854775807)
    (hbal : v.bits.count true = v.bits.count false) :
    ∃ t, BpTree.fromBitVector 512 v = .ok t ∧ v.bits.count true < 8 * t.heapSize - 8 * t.vec.heapSize := by
  obtain ⟨t, t1, t2⟩ := BpTree.fromBitVector_rep hw (show 0 < 512 by omega) h0 hl
  refine ⟨t, t1, ?_⟩
  obtain ⟨K, L, hk⟩ := t2.mmt
  have hn := BpTree.mmt_nodes_ge hk
  have hL := BpTree.mmt_leaves hk
  have hc := BV.count_true_add_false v.bits
  rw [BV.length_bits] at hL hc
  unfold BpTree.heapSize MMT.heapSize
  omega

/-- the tree `(()(()))` -/
example : (⟨[0b00011011#64], 8⟩ : BV).WF ∧
    (⟨[0b00011011#64], 8⟩ : BV).bits.count true = (⟨[0b00011011#64], 8⟩ : BV).bits.count false := by decide +kernel

example : (do
    let t ← BpTree.fromBitVector 512 (⟨[0b00011011#64], 8⟩ : BV)
    pure (t.heapSize, t.vec.heapSize)) = .ok (98, 50) := by decide +revert +kernel

end Vers
