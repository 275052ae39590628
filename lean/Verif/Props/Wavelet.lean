import Verif.Proofs.WaveletFinal

/-!
# Properties C31 - C38: the wavelet matrix

`Built m k vals` (Verif/AbsWavelet.lean): `m` was obtained from one of the four constructors, for the
sequence `vals` of `k`-bit words. `BV.WF` holds for every bit vector the API builds (C01, C02).
-/

set_option linter.unusedSimpArgs false

namespace Vers

variable [Profile]
open Spec WM

/-! ## C31: construction and access -/

/-- `from_slice` succeeds for every sequence and every width up to 64. The lowest `k` bits of the elements
are stored. -/
theorem C31_from_slice {k : Nat} (hk : 1 ≤ k) (hk' : k ≤ 64) (seq : List Word) :
    ∃ m, fromSlice seq k = .ok m ∧ Built m k (seq.map (·.toNat % 2 ^ k)) := by
  obtain ⟨vs, v1, v2, v3⟩ := fromSlice_levels seq hk'
  obtain ⟨m, m1, m2⟩ := stores_of_levels hk v2 v3
  rw [← v1] at m1
  exact ⟨m, m1, .slice hk m1⟩

example := C31_from_slice (k := 3) (by decide) (by decide) [5#64, 1#64, 7#64, 12#64]

/-- `from_bit_vec` succeeds for every packed sequence of words of any width. -/
theorem C31_from_bit_vec {k : Nat} (hk : 1 ≤ k) {v : BV} (hv : v.WF) (hd : v.len % k = 0) :
    ∃ m, fromBitVec v k = .ok m ∧ Built m k (chunks k v.bits) := by
  obtain ⟨vs, v1, v2, v3⟩ := fromBitVec_levels hv hk hd
  obtain ⟨m, m1, m2⟩ := stores_of_levels hk v2 v3
  rw [← v1] at m1
  exact ⟨m, m1, .packed hv m1⟩

example := C31_from_bit_vec (k := 4) (by decide) (v := ⟨[0x315#64], 12⟩) (by decide) (by decide)

/-- `from_slice_pc` succeeds for every sequence of `k`-bit words, for widths 1 to 63. -/
theorem C31_from_slice_pc {k : Nat} (hk : 1 ≤ k) (hk' : k < 64) {seq : List Word} (hx : ∀ x ∈ seq, x.toNat < 2 ^ k) :
    ∃ m, fromSlicePc seq k = .ok m ∧ Built m k (seq.map (·.toNat)) := by
  obtain ⟨vs, v1, v2, v3⟩ := fromSlicePc_levels seq hk hk' hx
  obtain ⟨m, m1, m2⟩ := stores_of_levels hk v2 v3
  rw [← v1] at m1
  have e : seq.map (·.toNat % 2 ^ k) = seq.map (·.toNat) :=
    List.map_congr_left fun x h => Nat.mod_eq_of_lt (hx x h)
  exact ⟨m, m1, e ▸ .slicePc hk m1⟩

example := C31_from_slice_pc (k := 3) (by decide) (by decide) (seq := [5#64, 1#64, 7#64]) (by simp)

/-- `from_bit_vec_pc` succeeds for every packed sequence of words, for widths 1 to 63. -/
theorem C31_from_bit_vec_pc {k : Nat} (hk : 1 ≤ k) (hk' : k < 64) {v : BV} (hv : v.WF) (hd : v.len % k = 0) :
    ∃ m, fromBitVecPc v k = .ok m ∧ Built m k (chunks k v.bits) := by
  obtain ⟨vs, v1, v2, v3⟩ := fromBitVecPc_levels hv hk hk' hd
  obtain ⟨m, m1, m2⟩ := stores_of_levels hk v2 v3
  rw [← v1] at m1
  exact ⟨m, m1, .packedPc hv m1⟩

example := C31_from_bit_vec_pc (k := 4) (by decide) (by decide) (v := ⟨[0x315#64], 12⟩) (by decide) (by decide)

/-- The matrix stores the sequence: its length, its width and every element, `None` beyond the end. The
`u64` accessor answers `None` for matrices wider than 64 bits. -/
theorem C31_access {m : WM} {k : Nat} {vals : List Nat} (h : Built m k vals) :
    m.len = vals.length ∧ m.bitsPer = k ∧ (∀ x ∈ vals, x < 2 ^ k) ∧ m.isEmpty = decide (vals = []) ∧
    (∀ i, ResBV k (m.getValue i) vals[i]?) ∧
    (k ≤ 64 → ∀ i, ResU64 (m.getU64 i) vals[i]?) ∧ (64 < k → ∀ i, m.getU64 i = .ok none) := by
  have hs := built_stores h
  exact ⟨hs.len, hs.bp, hs.lt, isEmpty_eq hs, getValue_eq hs, getU64_eq hs, getU64_wide hs⟩

/-- The deprecated `bit_len` is the number of bits per element as well: the constructors take it as a `u16`, so that nothing is
truncated. -/
theorem C31_bit_len {m : WM} {k : Nat} {vals : List Nat} (h : Built m k vals) (hk : k < 2 ^ 16) : m.bitLen.toNat = k := by
  unfold bitLen
  rw [(built_stores h).bp, BitVec.toNat_ofNat, Nat.mod_eq_of_lt hk]

/-- a matrix with 3 bits per element -/
example : ∃ m, fromSlice [5#64, 1#64, 7#64] 3 = .ok m ∧ m.bitLen.toNat = 3 := by
  obtain ⟨m, m1, m2⟩ := C31_from_slice (k := 3) (by omega) (by omega) [5#64, 1#64, 7#64]
  exact ⟨m, m1, C31_bit_len m2 (by decide)⟩

/-- Deviation: a width of zero. `from_slice` forgets the length of the sequence, `from_bit_vec` panics. -/
theorem C31_zero_width (seq : List Word) (v : BV) :
    (∃ m, fromSlice seq 0 = .ok m ∧ m.len = 0) ∧ (∃ p, fromBitVec v 0 = .error p) := by
  refine ⟨⟨⟨[]⟩, ?_, rfl⟩, ⟨_, rfl⟩⟩
  unfold fromSlice permutationSorting
  rw [assertR_true (by omega)]
  rfl

example : ∃ m, fromSlice [5#64, 1#64, 7#64, 1#64, 4#64] 3 = .ok m ∧ Built m 3 [5, 1, 7, 1, 4] :=
  C31_from_slice (by omega) (by omega) [5#64, 1#64, 7#64, 1#64, 4#64]

/-- a packed sequence: 4-bit words, least significant bit first -/
example : (⟨[0x315#64], 12⟩ : BV).WF ∧ (⟨[0x315#64], 12⟩ : BV).len % 4 = 0 ∧
    chunks 4 (⟨[0x315#64], 12⟩ : BV).bits = [5, 1, 3] := by decide +kernel

/-! ## C32: the two constructions -/

/-- Both constructions yield the same matrix (the same value, hence the same answers), for slices ... -/
theorem C32_slice {k : Nat} (hk : 1 ≤ k) (hk' : k < 64) {seq : List Word} (hx : ∀ x ∈ seq, x.toNat < 2 ^ k) :
    ∃ m, fromSlicePc seq k = .ok m ∧ fromSlice seq k = .ok m := by
  obtain ⟨vs, v1, v2, v3⟩ := fromSlicePc_levels seq hk hk' hx
  obtain ⟨ws, w1, w2, w3⟩ := fromSlice_levels seq (show k ≤ 64 by omega)
  obtain ⟨m, m1, _⟩ := stores_of_levels hk v2 v3
  refine ⟨m, by rw [v1]; exact m1, ?_⟩
  rw [w1, ← goodV_unique v3 w3 (by omega)]; exact m1

/-- ... and for packed sequences. -/
theorem C32_bit_vec {k : Nat} (hk : 1 ≤ k) (hk' : k < 64) {v : BV} (hv : v.WF) (hd : v.len % k = 0) :
    ∃ m, fromBitVecPc v k = .ok m ∧ fromBitVec v k = .ok m := by
  obtain ⟨vs, v1, v2, v3⟩ := fromBitVecPc_levels hv hk hk' hd
  obtain ⟨ws, w1, w2, w3⟩ := fromBitVec_levels hv hk hd
  obtain ⟨m, m1, _⟩ := stores_of_levels hk v2 v3
  refine ⟨m, by rw [v1]; exact m1, ?_⟩
  rw [w1, ← goodV_unique v3 w3 (by omega)]; exact m1

example := C32_bit_vec (k := 4) (by decide) (by decide) (v := ⟨[0x315#64], 12⟩) (by decide) (by decide)

/-- Two matrices for the same sequence are the same, whichever constructor they come from. -/
theorem C32_encodings {k : Nat} (hk : 1 ≤ k) (hk' : k ≤ 64) {seq : List Word} {v : BV} (hv : v.WF) (hd : v.len % k = 0)
    (h : chunks k v.bits = seq.map (·.toNat % 2 ^ k)) : ∃ m, fromSlice seq k = .ok m ∧ fromBitVec v k = .ok m := by
  obtain ⟨vs, v1, v2, v3⟩ := fromSlice_levels seq hk'
  obtain ⟨ws, w1, w2, w3⟩ := fromBitVec_levels hv hk hd
  obtain ⟨m, m1, _⟩ := stores_of_levels hk v2 v3
  rw [h] at w3
  refine ⟨m, by rw [v1]; exact m1, ?_⟩
  rw [w1, ← goodV_unique v3 w3 (by omega)]; exact m1

example := C32_encodings (k := 4) (by decide) (by decide) (seq := [5#64, 1#64, 3#64]) (v := ⟨[0x315#64], 12⟩) (by decide)
  (by decide) (by decide +kernel)

/-- Deviation: with a width of 64, which the documentation admits, the counting constructions panic on
every input. -/
theorem C32_width_64_defect (seq : List Word) (v : BV) :
    (∃ e, fromSlicePc seq 64 = .error e ∧ (Profile.debug = true → e = .overflow)) ∧
    (v.len % 64 = 0 → ∃ e, fromBitVecPc v 64 = .error e ∧ (Profile.debug = true → e = .overflow)) := by
  constructor
  · unfold fromSlicePc
    rw [assertR_true (by omega), ok_bind]
    exact prefixCounting_64 _ _ _
  · intro h
    unfold fromBitVecPc checkMultiple
    rw [if_neg (by omega), assertR_true h, ok_bind, assertR_true (by omega), ok_bind]
    exact prefixCounting_64 _ _ _

/-- Deviation: with a width of zero, which `from_slice` accepts (`C31_zero_width`), `from_slice_pc` panics for every
non-empty sequence. -/
theorem C32_zero_width_defect {seq : List Word} (h : seq ≠ []) : fromSlicePc seq 0 = .error .oob := by
  unfold fromSlicePc
  rw [assertR_true (by omega), ok_bind]
  unfold prefixCounting
  rw [if_pos (by omega), ok_bind]
  have hl : ∀ n, 0 < n → ∀ s, n ≤ seq.length →
      countLoop 0 (sliceLookup seq) (idx seq) n s = .error .oob := by
    intro n
    induction n with
    | zero => intro h0; omega
    | succ n ih =>
      intro _ s hn
      simp only [countLoop]
      by_cases h0 : 0 < n
      · rw [ih h0 s (by omega)]; rfl
      · have : n = 0 := by omega
        subst this
        simp only [countLoop, pure_eq_ok, ok_bind]
        rw [idx_of_lt (by omega), ok_bind]
        by_cases hc : (seq[0]'(by omega)).toNat < s.1.length
        · rw [idx_of_lt hc, ok_bind, setIdx_of_lt hc, ok_bind]; rfl
        · rw [idx_of_ge (by omega)]; rfl
  rw [hl _ (List.length_pos_iff.mpr h) _ (Nat.le_refl _)]
  rfl

example : fromSlicePc [5#64, 1#64] 0 = .error .oob := C32_zero_width_defect (by decide)

/-- Deviation: `from_slice_pc` panics for every sequence with an element of more than `k` bits, whereas
`from_slice` stores its lowest `k` bits. -/
theorem C32_wide_element_defect {k : Nat} {seq : List Word} {x : Word} (hx : x ∈ seq) (h : 2 ^ k ≤ x.toNat) :
    ∃ p, fromSlicePc seq k = .error p := by
  cases hr : fromSlicePc seq k with
  | error p => exact ⟨p, rfl⟩
  | ok m =>
    have := (fromSlicePc_ok hr).2 x hx
    omega

example : ∀ x ∈ [5#64, 1#64, 7#64, 1#64, 4#64], x.toNat < 2 ^ 3 := by
  intro x hx
  simp only [List.mem_cons, List.not_mem_nil, or_false] at hx
  rcases hx with rfl | rfl | rfl | rfl | rfl <;> decide

/-! ## C33: rank -/

/-- `rank_range`, `rank_offset` and `rank` count the occurrences of the symbol, and answer `None` for
positions out of bounds (an offset must be below the length) and for symbols of the wrong length. -/
theorem C33_rank {m : WM} {k : Nat} {vals : List Nat} (h : Built m k vals) {sym : BV} (hw : sym.WF) :
    (sym.len = k → ∀ s e, s < vals.length → s ≤ e → e ≤ vals.length →
      m.rankRange s e sym = .ok (some ((between vals s e).count (bitsToNat sym.bits))) ∧
      m.rankOffset s e sym = .ok (some ((between vals s e).count (bitsToNat sym.bits)))) ∧
    (sym.len = k → ∀ i, i ≤ vals.length → m.rank i sym = .ok (some ((vals.take i).count (bitsToNat sym.bits)))) ∧
    (∀ s e, vals.length ≤ s ∨ vals.length < e ∨ sym.len ≠ k →
      m.rankRange s e sym = .ok none ∧ m.rankOffset s e sym = .ok none) ∧
    (∀ i, vals.length < i ∨ sym.len ≠ k → m.rank i sym = .ok none) := by
  have hs := built_stores h
  refine ⟨?_, ?_, ?_, ?_⟩
  · intro hl s e h1 h2 h3
    rw [rankRange_eq hs hw hl, rankOffset_eq hs hw hl, if_neg (by omega), if_neg (by omega), rankSpec, if_pos h2]
    exact ⟨rfl, rfl⟩
  · intro hl i hi
    rw [rank_eq hs hw hl, if_neg (by omega)]
  · intro s e hb
    unfold rankRange rankOffset
    rw [hs.len, hs.bp, if_pos (by omega), if_pos (by omega)]
    exact ⟨rfl, rfl⟩
  · intro i hb
    unfold WM.rank
    rw [hs.len, hs.bp, if_pos (by omega)]; rfl

/-- The same for symbols given as `u64`; of a symbol with more than `k` bits the lowest `k` bits are
searched, see `C33_wide_symbol_defect`. -/
theorem C33_rank_u64 {m : WM} {k : Nat} {vals : List Nat} (h : Built m k vals) (sym : Word) :
    (k ≤ 64 → ∀ s e, s < vals.length → s ≤ e → e ≤ vals.length →
      m.rankRangeU64 s e sym = .ok (some ((between vals s e).count (sym.toNat % 2 ^ k))) ∧
      m.rankOffsetU64 s e sym = .ok (some ((between vals s e).count (sym.toNat % 2 ^ k)))) ∧
    (k ≤ 64 → ∀ i, i ≤ vals.length → m.rankU64 i sym = .ok (some ((vals.take i).count (sym.toNat % 2 ^ k)))) ∧
    (∀ s e, vals.length ≤ s ∨ vals.length < e ∨ 64 < k →
      m.rankRangeU64 s e sym = .ok none ∧ m.rankOffsetU64 s e sym = .ok none) ∧
    (∀ i, vals.length < i ∨ 64 < k → m.rankU64 i sym = .ok none) := by
  have hs := built_stores h
  refine ⟨?_, ?_, ?_, ?_⟩
  · intro hl s e h1 h2 h3
    rw [rankRangeU64_eq hs hl, rankOffsetU64_eq hs hl, if_neg (by omega), if_neg (by omega), rankSpec, if_pos h2]
    exact ⟨rfl, rfl⟩
  · intro hl i hi
    rw [rankU64_eq hs hl, if_neg (by omega)]
  · intro s e hb
    unfold rankRangeU64 rankOffsetU64
    rw [hs.len, hs.bp, if_pos (by omega), if_pos (by omega)]
    exact ⟨rfl, rfl⟩
  · intro i hb
    unfold WM.rankU64
    rw [hs.len, hs.bp, if_pos (by omega)]; rfl

example : ∃ m, fromSlice [5#64, 1#64, 7#64, 1#64, 4#64] 3 = .ok m ∧ m.rankRangeU64 1 5 1#64 = .ok (some 2) := by
  obtain ⟨m, m1, m2⟩ := C31_from_slice (k := 3) (by omega) (by omega) [5#64, 1#64, 7#64, 1#64, 4#64]
  exact ⟨m, m1, ((C33_rank_u64 m2 1#64).1 (by omega) 1 5 (by decide) (by omega) (by decide)).1⟩

/-- Deviation: a `u64` symbol that does not fit into `k` bits and hence does not occur is counted as its
lowest `k` bits. -/
theorem C33_wide_symbol_defect :
    (do let m ← fromSlice [1#64, 0#64] 1; m.rankU64 2 3#64) = .ok (some 1) := by decide +revert +kernel

/-- Positions 1 to 3 of `[5, 1, 7, 1, 4]` contain the symbol 1 twice. -/
example : ∃ m, fromSlice [5#64, 1#64, 7#64, 1#64, 4#64] 3 = .ok m ∧ m.rankRangeU64 1 4 1#64 = .ok (some 2) := by
  obtain ⟨m, m1, m2⟩ := C31_from_slice (k := 3) (by omega) (by omega) [5#64, 1#64, 7#64, 1#64, 4#64]
  exact ⟨m, m1, ((C33_rank_u64 m2 1#64).1 (by omega) 1 4 (by decide) (by decide) (by decide)).1⟩

/-! ## C34: select -/

/-- The call answers (without panic) the position of the occurrence of `c` that is preceded by exactly `n`
occurrences at or after position `o`, or `None` if at most `n` elements from `o` on are `c`. -/
def SelectsNth (vals : List Nat) (c o n : Nat) (r : R (Option Nat)) : Prop :=
  (∃ p, r = .ok (some p) ∧ IsNth vals c o n p) ∨ (r = .ok none ∧ (vals.drop o).count c ≤ n)

omit [Profile] in
theorem selectsNth_of {S : List Nat} {c o n : Nat} {r : R (Option Nat)} (h : SelectRes S c o n r) : SelectsNth S c o n r := by
  unfold SelectRes at h
  rcases h with h | h
  · exact Or.inl h
  · right
    have : between S o S.length = S.drop o := by simp [between]
    rw [this] at h
    exact h

/-- Partial: the rank plus the length of the sequence is below 2^64, see `C34_overflow_defect` and
`C34_select_or_overflow`. `select` and `select_offset` find the occurrence in question; `None` for an
offset out of bounds or a symbol of the wrong length. -/
theorem C34_select_partial {m : WM} {k : Nat} {vals : List Nat} (h : Built m k vals) {sym : BV} (hw : sym.WF)
    (n : Nat) (hn : vals.length + n < 2 ^ 64) :
    (sym.len = k → SelectsNth vals (bitsToNat sym.bits) 0 n (m.select n sym) ∧
      ∀ o, o < vals.length → SelectsNth vals (bitsToNat sym.bits) o n (m.selectOffset o n sym)) ∧
    (sym.len ≠ k → m.select n sym = .ok none) ∧
    (∀ o, vals.length ≤ o ∨ sym.len ≠ k → m.selectOffset o n sym = .ok none) := by
  have hs := built_stores h
  refine ⟨fun hl => ⟨?_, fun o ho => ?_⟩, fun hl => ?_, fun o ho => ?_⟩
  · rw [select_in hs hl]
    rcases selectGen_res hs (reads_BV hw hl) n (Nat.zero_le _) with ⟨h1, _⟩ | h1
    · omega
    · exact selectsNth_of h1
  · rw [selectOffset_in hs hl ho]
    rcases selectGen_res hs (reads_BV hw hl) n (Nat.le_of_lt ho) with ⟨h1, _⟩ | h1
    · omega
    · exact selectsNth_of h1
  · unfold WM.select; rw [hs.bp, if_neg hl]; rfl
  · unfold selectOffset; rw [hs.bp, hs.len, if_pos (by omega)]; rfl

/-- Partial in the same way: symbols given as `u64`. -/
theorem C34_select_u64_partial {m : WM} {k : Nat} {vals : List Nat} (h : Built m k vals) (sym : Word)
    (n : Nat) (hn : vals.length + n < 2 ^ 64) :
    (k ≤ 64 → SelectsNth vals (sym.toNat % 2 ^ k) 0 n (m.selectU64 n sym) ∧
      ∀ o, o < vals.length → SelectsNth vals (sym.toNat % 2 ^ k) o n (m.selectOffsetU64 o n sym)) ∧
    (64 < k → m.selectU64 n sym = .ok none) ∧
    (∀ o, vals.length ≤ o ∨ 64 < k → m.selectOffsetU64 o n sym = .ok none) := by
  have hs := built_stores h
  refine ⟨fun hl => ⟨?_, fun o ho => ?_⟩, fun hl => ?_, fun o ho => ?_⟩
  · rw [selectU64_in hs hl]
    rcases selectGen_res hs (reads_U64 sym hl) n (Nat.zero_le _) with ⟨h1, _⟩ | h1
    · omega
    · exact selectsNth_of h1
  · rw [selectOffsetU64_in hs hl sym ho]
    rcases selectGen_res hs (reads_U64 sym hl) n (Nat.le_of_lt ho) with ⟨h1, _⟩ | h1
    · omega
    · exact selectsNth_of h1
  · unfold WM.selectU64; rw [hs.bp, if_pos (by omega)]; rfl
  · unfold selectOffsetU64; rw [hs.bp, hs.len, if_pos (by omega)]; rfl

example : ∃ m, fromSlice [5#64, 1#64, 7#64, 1#64, 4#64] 3 = .ok m ∧
    SelectsNth [5, 1, 7, 1, 4] 1 2 0 (m.selectOffsetU64 2 0 1#64) := by
  obtain ⟨m, m1, m2⟩ := C31_from_slice (k := 3) (by omega) (by omega) [5#64, 1#64, 7#64, 1#64, 4#64]
  exact ⟨m, m1, ((C34_select_u64_partial m2 1#64 0 (by decide)).1 (by omega)).2 2 (by decide)⟩

/-- For every rank: the answer is right, or the addition of the rank overflows. -/
theorem C34_select_or_overflow (hd : Profile.debug = true) {m : WM} {k : Nat} {vals : List Nat} (h : Built m k vals) {sym : BV} (hw : sym.WF)
    (hl : sym.len = k) (sym' : Word) (hk : sym'.toNat % 2 ^ k = bitsToNat sym.bits) (n : Nat) :
    (SelectsNth vals (bitsToNat sym.bits) 0 n (m.select n sym) ∨ m.select n sym = .error .overflow) ∧
    (∀ o, o < vals.length → SelectsNth vals (bitsToNat sym.bits) o n (m.selectOffset o n sym) ∨
      m.selectOffset o n sym = .error .overflow) ∧
    (k ≤ 64 → SelectsNth vals (bitsToNat sym.bits) 0 n (m.selectU64 n sym') ∨ m.selectU64 n sym' = .error .overflow) ∧
    (k ≤ 64 → ∀ o, o < vals.length → SelectsNth vals (bitsToNat sym.bits) o n (m.selectOffsetU64 o n sym') ∨
      m.selectOffsetU64 o n sym' = .error .overflow) := by
  have hs := built_stores h
  refine ⟨?_, fun o ho => ?_, fun hk' => ?_, fun hk' o ho => ?_⟩
  · rw [select_in hs hl]
    rcases selectGen_res hs (reads_BV hw hl) n (Nat.zero_le _) with ⟨_, h1⟩ | h1
    · exact Or.inr (h1 hd)
    · exact Or.inl (selectsNth_of h1)
  · rw [selectOffset_in hs hl ho]
    rcases selectGen_res hs (reads_BV hw hl) n (Nat.le_of_lt ho) with ⟨_, h1⟩ | h1
    · exact Or.inr (h1 hd)
    · exact Or.inl (selectsNth_of h1)
  · rw [selectU64_in hs hk', ← hk]
    rcases selectGen_res hs (reads_U64 sym' hk') n (Nat.zero_le _) with ⟨_, h1⟩ | h1
    · exact Or.inr (h1 hd)
    · exact Or.inl (selectsNth_of h1)
  · rw [selectOffsetU64_in hs hk' sym' ho, ← hk]
    rcases selectGen_res hs (reads_U64 sym' hk') n (Nat.le_of_lt ho) with ⟨_, h1⟩ | h1
    · exact Or.inr (h1 hd)
    · exact Or.inl (selectsNth_of h1)

example : (5#64).toNat % 2 ^ 3 = bitsToNat (⟨[13#64], 3⟩ : BV).bits ∧ (⟨[13#64], 3⟩ : BV).WF := by decide

/-- Defect: a huge rank overflows instead of answering `None`. -/
theorem C34_overflow_defect (hd : Profile.debug = true) :
    (do let m ← fromSlice [0#64, 1#64] 1; m.selectU64 (2 ^ 64 - 1) 1#64) = .error .overflow := by
  decide +revert +kernel

/-- The second 1 of `[5, 1, 7, 1, 4]` is at position 3; there is no third one. -/
example : ∃ m, fromSlice [5#64, 1#64, 7#64, 1#64, 4#64] 3 = .ok m ∧ m.selectU64 1 1#64 = .ok (some 3) ∧
    m.selectU64 2 1#64 = .ok none := by
  obtain ⟨m, m1, m2⟩ := C31_from_slice (k := 3) (by omega) (by omega) [5#64, 1#64, 7#64, 1#64, 4#64]
  refine ⟨m, m1, ?_, ?_⟩
  · rcases ((C34_select_u64_partial m2 1#64 1 (by decide)).1 (by omega)).1 with ⟨p, h1, h2⟩ | ⟨_, h2⟩
    · have : IsNth ([5#64, 1#64, 7#64, 1#64, 4#64].map (·.toNat % 2 ^ 3)) ((1#64).toNat % 2 ^ 3) 0 1 3 := by
        unfold IsNth; decide +kernel
      rw [h1, isNth_unique h2 this]
    · exact absurd h2 (by decide +kernel)
  · rcases ((C34_select_u64_partial m2 1#64 2 (by decide)).1 (by omega)).1 with ⟨p, h1, h2⟩ | ⟨h1, _⟩
    · exact absurd (isNth_lt h2) (by decide +kernel)
    · exact h1

/-! ## C35: order statistics -/

/-- Partial: the range is not reversed, see `C37_reversed_defect`. `quantile(s..e, j)` is the `j`-th
smallest element of the range; `range_min` its minimum. `None` for ranges out of bounds, `j` beyond the
range and empty ranges. -/
theorem C35_quantile_partial {m : WM} {k : Nat} {vals : List Nat} (h : Built m k vals) {s e : Nat} (hse : s ≤ e) :
    (∀ j, ResBV k (m.quantile s e j)
      (if s < vals.length ∧ e ≤ vals.length then (sorted (between vals s e))[j]? else none)) ∧
    ResBV k (m.rangeMin s e) (if s < e ∧ e ≤ vals.length then (between vals s e).min? else none) ∧
    (k ≤ 64 → (∀ j, ResU64 (m.quantileU64 s e j)
      (if s < vals.length ∧ e ≤ vals.length then (sorted (between vals s e))[j]? else none)) ∧
      ResU64 (m.rangeMinU64 s e) (if s < e ∧ e ≤ vals.length then (between vals s e).min? else none)) := by
  have hs := built_stores h
  have e1 : ∀ o : Option Nat, (if s < vals.length ∧ e ≤ vals.length then o else none) =
      (if s ≥ vals.length ∨ e > vals.length then none else o) := by
    intro o; by_cases hb : s < vals.length ∧ e ≤ vals.length
    · rw [if_pos hb, if_neg (by omega)]
    · rw [if_neg hb, if_pos (by omega)]
  have e2 : ∀ o : Option Nat, (if s < e ∧ e ≤ vals.length then o else none) = inRange vals s e o := by
    intro o; unfold inRange; by_cases hb : s < e ∧ e ≤ vals.length
    · rw [if_pos hb, if_neg (by omega)]
    · rw [if_neg hb, if_pos (by omega)]
  simp only [e1, e2]
  exact ⟨quantile_eq hs hse, rangeMin_eq hs hse, fun hk => ⟨quantileU64_eq hs hk hse, rangeMinU64_eq hs hk hse⟩⟩

/-- `range_max` and `range_median` (the lower median), for every range. -/
theorem C35_max_median {m : WM} {k : Nat} {vals : List Nat} (h : Built m k vals) (s e : Nat) :
    ResBV k (m.rangeMax s e) (if s < e ∧ e ≤ vals.length then (between vals s e).max? else none) ∧
    ResBV k (m.rangeMedian s e)
      (if s < e ∧ e ≤ vals.length then (sorted (between vals s e))[(e - s - 1) / 2]? else none) ∧
    (k ≤ 64 →
      ResU64 (m.rangeMaxU64 s e) (if s < e ∧ e ≤ vals.length then (between vals s e).max? else none) ∧
      ResU64 (m.rangeMedianU64 s e)
        (if s < e ∧ e ≤ vals.length then (sorted (between vals s e))[(e - s - 1) / 2]? else none)) := by
  have hs := built_stores h
  have e2 : ∀ o : Option Nat, (if s < e ∧ e ≤ vals.length then o else none) = inRange vals s e o := by
    intro o; unfold inRange; by_cases hb : s < e ∧ e ≤ vals.length
    · rw [if_pos hb, if_neg (by omega)]
    · rw [if_neg hb, if_pos (by omega)]
  simp only [e2]
  exact ⟨rangeMax_eq hs s e, rangeMedian_eq hs s e, fun hk => ⟨rangeMaxU64_eq hs hk s e, rangeMedianU64_eq hs hk s e⟩⟩

/-- The maximum of the three elements `7, 1, 4`. -/
example : ∃ m, fromSlice [5#64, 1#64, 7#64, 1#64, 4#64] 3 = .ok m ∧ ResU64 (m.rangeMaxU64 2 5) (some 7) := by
  obtain ⟨m, m1, m2⟩ := C31_from_slice (k := 3) (by omega) (by omega) [5#64, 1#64, 7#64, 1#64, 4#64]
  exact ⟨m, m1, ((C35_max_median m2 2 5).2.2 (by omega)).1⟩

/-- `get_sorted(i)` is the element at position `i` of the sorted sequence. -/
theorem C35_get_sorted {m : WM} {k : Nat} {vals : List Nat} (h : Built m k vals) (i : Nat) :
    ResBV k (m.getSorted i) (sorted vals)[i]? ∧ (k ≤ 64 → ResU64 (m.getSortedU64 i) (sorted vals)[i]?) := by
  have hs := built_stores h
  exact ⟨getSorted_eq hs i, fun hk => getSortedU64_eq hs hk i⟩

example : ∃ m, fromSlice [5#64, 1#64, 7#64, 1#64, 4#64] 3 = .ok m ∧ ResU64 (m.getSortedU64 2) (some 4) := by
  obtain ⟨m, m1, m2⟩ := C31_from_slice (k := 3) (by omega) (by omega) [5#64, 1#64, 7#64, 1#64, 4#64]
  refine ⟨m, m1, ?_⟩
  have h := (C35_get_sorted m2 2).2 (by omega)
  have e : sorted [5, 1, 7, 1, 4] = [1, 1, 4, 5, 7] := sorted_eq_of (by decide) (by decide)
  simpa [e] using h

omit [Profile] in
/-- The specification: `sorted` is the ascending arrangement. -/
theorem C35_sorted_spec (l : List Nat) : (sorted l).Perm l ∧ (sorted l).Pairwise (· ≤ ·) :=
  ⟨sorted_perm l, sorted_pairwise l⟩

/-- The median of the first four elements of `[5, 1, 7, 1, 4]` is 1, the maximum 7. -/
example : ∃ m, fromSlice [5#64, 1#64, 7#64, 1#64, 4#64] 3 = .ok m ∧ ResU64 (m.rangeMedianU64 0 4) (some 1) ∧
    ResU64 (m.rangeMaxU64 0 4) (some 7) := by
  obtain ⟨m, m1, m2⟩ := C31_from_slice (k := 3) (by omega) (by omega) [5#64, 1#64, 7#64, 1#64, 4#64]
  have := (C35_max_median m2 0 4).2.2 (by omega)
  have e : sorted [5, 1, 7, 1] = [1, 1, 5, 7] := sorted_eq_of (by decide) (by decide)
  exact ⟨m, m1, by simpa [between, e] using this.2, by simpa [between] using this.1⟩

/-! ## C36: predecessor and successor -/

/-- `predecessor` is the largest element of the range that is at most the symbol, `successor` the smallest
that is at least the symbol; `None` if there is none or the range is empty, reversed or out of bounds. -/
theorem C36_neighbours {m : WM} {k : Nat} {vals : List Nat} (h : Built m k vals) (s e : Nat) :
    (∀ sym : BV, sym.WF → sym.len = k →
      ResBV k (m.predecessor s e sym)
        (if s < e ∧ e ≤ vals.length then ((between vals s e).filter (· ≤ bitsToNat sym.bits)).max? else none) ∧
      ResBV k (m.successor s e sym)
        (if s < e ∧ e ≤ vals.length then ((between vals s e).filter (bitsToNat sym.bits ≤ ·)).min? else none)) ∧
    (∀ sym : BV, sym.len ≠ k → m.predecessor s e sym = .ok none ∧ m.successor s e sym = .ok none) ∧
    (k ≤ 64 → ∀ sym : Word,
      ResU64 (m.predecessorU64 s e sym)
        (if s < e ∧ e ≤ vals.length then ((between vals s e).filter (· ≤ sym.toNat % 2 ^ k)).max? else none) ∧
      ResU64 (m.successorU64 s e sym)
        (if s < e ∧ e ≤ vals.length then ((between vals s e).filter (sym.toNat % 2 ^ k ≤ ·)).min? else none)) ∧
    (64 < k → ∀ sym : Word, m.predecessorU64 s e sym = .ok none ∧ m.successorU64 s e sym = .ok none) := by
  have hs := built_stores h
  have e2 : ∀ o : Option Nat, (if s < e ∧ e ≤ vals.length then o else none) = inRange vals s e o := by
    intro o; unfold inRange; by_cases hb : s < e ∧ e ≤ vals.length
    · rw [if_pos hb, if_neg (by omega)]
    · rw [if_neg hb, if_pos (by omega)]
  simp only [e2]
  refine ⟨fun sym hw hl => ⟨predecessor_eq hs hw hl s e, successor_eq hs hw hl s e⟩, fun sym hl => ?_,
    fun hk sym => ⟨predecessorU64_eq hs hk sym s e, successorU64_eq hs hk sym s e⟩, fun hk sym => ?_⟩
  · unfold predecessor successor
    rw [hs.bp, if_pos (Or.inl hl), if_pos (Or.inl hl)]; exact ⟨rfl, rfl⟩
  · unfold predecessorU64 successorU64
    rw [hs.bp, if_pos (Or.inl hk), if_pos (Or.inl hk)]; exact ⟨rfl, rfl⟩

/-- Deviation: a `u64` symbol that does not fit into `k` bits is truncated, so that the predecessor of 2
among the 1-bit words 1, 1 is not found. -/
theorem C36_wide_symbol_defect :
    (do let m ← fromSlice [1#64, 1#64] 1; m.predecessorU64 0 2 2#64) = .ok none := by decide +revert +kernel

/-- In `[5, 1, 7, 1]` the predecessor of 6 is 5, the successor is 7. -/
example : ∃ m, fromSlice [5#64, 1#64, 7#64, 1#64, 4#64] 3 = .ok m ∧ ResU64 (m.predecessorU64 0 4 6#64) (some 5) ∧
    ResU64 (m.successorU64 0 4 6#64) (some 7) := by
  obtain ⟨m, m1, m2⟩ := C31_from_slice (k := 3) (by omega) (by omega) [5#64, 1#64, 7#64, 1#64, 4#64]
  have := (C36_neighbours m2 0 4).2.2.1 (by omega) 6#64
  exact ⟨m, m1, by simpa [between] using this.1, by simpa [between] using this.2⟩

/-! ## C37: bad arguments -/

/-- Partial: missing are reversed ranges within the bounds for `rank_range`, `quantile` and `range_min`
(`C37_reversed_defect`) and ranks near 2^64 for the select functions (`C34_overflow_defect`).
Whenever a position is out of bounds every query answers `None`; so do the order statistics, predecessor
and successor for empty ranges, and `rank_offset`, `range_max`, `range_median`, `predecessor` and
`successor` for reversed ranges. -/
theorem C37_none_partial {m : WM} {k : Nat} {vals : List Nat} (h : Built m k vals) (s e j : Nat) (sym : BV) (w : Word) :
    (vals.length ≤ s → m.getValue s = .ok none ∧ m.getU64 s = .ok none ∧ m.getSorted s = .ok none ∧
      m.getSortedU64 s = .ok none ∧ m.selectOffset s j sym = .ok none ∧ m.selectOffsetU64 s j w = .ok none) ∧
    (vals.length < e → m.rank e sym = .ok none ∧ m.rankU64 e w = .ok none) ∧
    (vals.length ≤ s ∨ vals.length < e → m.rankRange s e sym = .ok none ∧ m.rankRangeU64 s e w = .ok none ∧
      m.quantile s e j = .ok none ∧ m.quantileU64 s e j = .ok none ∧ m.rangeMin s e = .ok none ∧
      m.rangeMinU64 s e = .ok none) ∧
    (s = e → m.quantile s e j = .ok none ∧ m.quantileU64 s e j = .ok none ∧ m.rangeMin s e = .ok none ∧
      m.rangeMinU64 s e = .ok none) ∧
    (e ≤ s ∨ vals.length < e → m.rangeMax s e = .ok none ∧ m.rangeMaxU64 s e = .ok none ∧
      m.rangeMedian s e = .ok none ∧ m.rangeMedianU64 s e = .ok none ∧ m.predecessor s e sym = .ok none ∧
      m.predecessorU64 s e w = .ok none ∧ m.successor s e sym = .ok none ∧ m.successorU64 s e w = .ok none) ∧
    (e < s ∨ vals.length ≤ s ∨ vals.length < e →
      m.rankOffset s e sym = .ok none ∧ m.rankOffsetU64 s e w = .ok none) ∧
    (s ≤ e → e - s ≤ j → m.quantile s e j = .ok none ∧ m.quantileU64 s e j = .ok none) := by
  have hs := built_stores h
  have hq : ∀ s e j, s ≤ e → e - s ≤ j ∨ vals.length < e ∨ vals.length ≤ s → m.quantile s e j = .ok none ∧ m.quantileU64 s e j = .ok none := by
    intro s e j h1 h2
    unfold quantile quantileU64
    rw [hs.len]
    refine ⟨?_, ?_⟩
    · by_cases hb : s ≥ vals.length ∨ e > vals.length
      · rw [if_pos hb]; rfl
      · rw [if_neg hb, subR_of_le h1, ok_bind, if_pos (by omega)]; rfl
    · by_cases hb : s ≥ vals.length ∨ e > vals.length ∨ m.bitsPer > 64
      · rw [if_pos hb]; rfl
      · rw [if_neg hb, subR_of_le h1, ok_bind, if_pos (by omega)]; rfl
  have ho : ∀ s e j, vals.length < e ∨ vals.length ≤ s → m.quantile s e j = .ok none ∧ m.quantileU64 s e j = .ok none := by
    intro s e j h2
    unfold quantile quantileU64
    rw [hs.len, if_pos (by omega), if_pos (by omega)]
    exact ⟨rfl, rfl⟩
  refine ⟨fun hb => ?_, fun hb => ?_, fun hb => ?_, fun hb => ?_, fun hb => ?_, fun hb => ?_, fun h1 h2 => hq s e j h1 (Or.inl h2)⟩
  · unfold getValue getU64 getSorted getSortedU64 selectOffset selectOffsetU64
    rw [hs.len]
    rw [if_pos (by omega), if_pos (by omega), if_pos (by omega), if_pos (by omega), if_pos (by omega), if_pos (by omega)]
    exact ⟨rfl, rfl, rfl, rfl, rfl, rfl⟩
  · unfold WM.rank rankU64
    rw [hs.len, if_pos (by omega), if_pos (by omega)]
    exact ⟨rfl, rfl⟩
  · refine ⟨?_, ?_, (ho s e j (by omega)).1, (ho s e j (by omega)).2, (ho s e 0 (by omega)).1, (ho s e 0 (by omega)).2⟩
    · unfold rankRange; rw [hs.len, if_pos (by omega)]; rfl
    · unfold rankRangeU64; rw [hs.len, if_pos (by omega)]; rfl
  · exact ⟨(hq s e j (by omega) (by omega)).1, (hq s e j (by omega) (by omega)).2, (hq s e 0 (by omega) (by omega)).1,
      (hq s e 0 (by omega) (by omega)).2⟩
  · refine ⟨?_, ?_, ?_, ?_, ?_, ?_, ?_, ?_⟩
    · unfold rangeMax; split
      · rfl
      · exact (ho _ _ _ (by omega)).1
    · unfold rangeMaxU64; split
      · rfl
      · exact (ho _ _ _ (by omega)).2
    · unfold rangeMedian; split
      · rfl
      · exact (ho _ _ _ (by omega)).1
    · unfold rangeMedianU64; split
      · rfl
      · exact (ho _ _ _ (by omega)).2
    · unfold predecessor; rw [hs.len, if_pos (by omega)]; rfl
    · unfold predecessorU64; rw [hs.len, if_pos (by omega)]; rfl
    · unfold successor; rw [hs.len, if_pos (by omega)]; rfl
    · unfold successorU64; rw [hs.len, if_pos (by omega)]; rfl
  · unfold rankOffset rankOffsetU64
    rw [hs.len, if_pos (by omega), if_pos (by omega)]
    exact ⟨rfl, rfl⟩

/-- Defect: a reversed range within the bounds makes `quantile` and `range_min` panic, on every matrix;
`rank_range` panics exactly if the symbol occurs between the two positions, and answers `Some(0)`
otherwise. -/
theorem C37_reversed_defect (hd : Profile.debug = true) {m : WM} {k : Nat} {vals : List Nat} (h : Built m k vals) {s e : Nat}
    (hse : e < s) (hs' : s < vals.length) (j : Nat) :
    m.quantile s e j = .error .overflow ∧ m.rangeMin s e = .error .overflow ∧
    (k ≤ 64 → m.quantileU64 s e j = .error .overflow ∧ m.rangeMinU64 s e = .error .overflow) ∧
    (∀ sym : BV, sym.WF → sym.len = k → m.rankRange s e sym =
      if bitsToNat sym.bits ∈ between vals e s then .error .overflow else .ok (some 0)) ∧
    (k ≤ 64 → ∀ sym : Word, m.rankRangeU64 s e sym =
      if sym.toNat % 2 ^ k ∈ between vals e s then .error .overflow else .ok (some 0)) := by
  have hs := built_stores h
  have hsub : subR e s = .error .overflow := subR_overflow hd hse
  have hq : ∀ j, m.quantile s e j = .error .overflow := by
    intro j; unfold quantile; rw [hs.len, if_neg (by omega), hsub]; rfl
  have hr : ∀ c, rankSpec vals c s e = if c ∈ between vals e s then .error .overflow else .ok (some 0) := by
    intro c
    unfold rankSpec
    rw [if_neg (by omega)]
    by_cases hc : c ∈ between vals e s
    · rw [if_pos hc, if_neg (by rw [List.count_eq_zero]; simp [hc]), wrapR_debug hd]
    · rw [if_neg hc, if_pos (by rw [List.count_eq_zero]; exact hc)]
  refine ⟨hq j, hq 0, fun hk => ?_, fun sym hw hl => ?_, fun hk sym => ?_⟩
  · have : ∀ j, m.quantileU64 s e j = .error .overflow := by
      intro j; unfold quantileU64; rw [hs.len, hs.bp, if_neg (by omega), hsub]; rfl
    exact ⟨this j, this 0⟩
  · rw [rankRange_eq hs hw hl, if_neg (by omega), hr]
  · rw [rankRangeU64_eq hs hk, if_neg (by omega), hr]

example (hd : Profile.debug = true) : ∃ m, fromSlice [5#64, 1#64, 7#64, 1#64, 4#64] 3 = .ok m ∧
    m.rangeMin 4 2 = .error .overflow := by
  obtain ⟨m, m1, m2⟩ := C31_from_slice (k := 3) (by omega) (by omega) [5#64, 1#64, 7#64, 1#64, 4#64]
  exact ⟨m, m1, (C37_reversed_defect hd m2 (s := 4) (e := 2) (by decide) (by decide) 0).2.1⟩

/-- In release builds, where arithmetic wraps around, `rank_range` answers a reversed range with the
number of occurrences between the two positions, negated modulo 2^64. -/
theorem C37_reversed_release_defect (hd : Profile.debug = false) {m : WM} {k : Nat} {vals : List Nat}
    (h : Built m k vals) {s e : Nat} (hse : e < s) (hs' : s < vals.length) :
    (∀ sym : BV, sym.WF → sym.len = k → m.rankRange s e sym = .ok (some
      ((2 ^ 64 - (between vals e s).count (bitsToNat sym.bits)) % 2 ^ 64))) ∧
    (k ≤ 64 → ∀ sym : Word, m.rankRangeU64 s e sym = .ok (some
      ((2 ^ 64 - (between vals e s).count (sym.toNat % 2 ^ k)) % 2 ^ 64))) := by
  have hs := built_stores h
  have hr : ∀ c, rankSpec vals c s e = .ok (some ((2 ^ 64 - (between vals e s).count c) % 2 ^ 64)) := by
    intro c
    unfold rankSpec
    rw [if_neg (by omega)]
    by_cases hc : (between vals e s).count c = 0
    · rw [if_pos hc, hc]
    · rw [if_neg hc, wrapR_release hd, Nat.mod_eq_of_lt (by omega)]
  refine ⟨fun sym hw hl => ?_, fun hk sym => ?_⟩
  · rw [rankRange_eq hs hw hl, if_neg (by omega), hr]
  · rw [rankRangeU64_eq hs hk, if_neg (by omega), hr]

example (hd : Profile.debug = true) :
    (do let m ← fromSlice [5#64, 1#64, 7#64, 1#64, 4#64] 3; m.rangeMinU64 3 1) = .error .overflow := by
  obtain ⟨m, m1, m2⟩ := C31_from_slice (k := 3) (by omega) (by omega) [5#64, 1#64, 7#64, 1#64, 4#64]
  rw [m1]
  exact ((C37_reversed_defect hd m2 (s := 3) (e := 1) (by decide) (by decide) 0).2.2.1 (by omega)).2

/-! ## C38: iteration -/

/-- For every sequence of calls, the iterators over the matrix answer like iterators over the list of its
elements in original order (`iter`, `iter_u64`), respectively in ascending order (`iter_sorted`,
`iter_sorted_u64`). As for all iterators of this kind (C20) the arguments of `nth` and `nth_back` do not
exceed the number of remaining elements. The number of elements is below 2^64, as every `usize`. -/
theorem C38_iterators {m : WM} {k : Nat} {vals : List Nat} (h : Built m k vals) (hn : vals.length < 2 ^ 64) :
    (∃ l : List BV, l.map BV.bits = vals.map (natToBits k) ∧ (∀ v ∈ l, v.WF) ∧ ∀ ops, CallsOk NthInRange l ops →
      execute (GenIter.step m.valueOps) (GenIter.new m.valueOps) ops = .ok (iterRun l ops)) ∧
    (∃ l : List BV, l.map BV.bits = (sorted vals).map (natToBits k) ∧ (∀ v ∈ l, v.WF) ∧ ∀ ops, CallsOk NthInRange l ops →
      execute (GenIter.step m.sortedOps) m.iterSorted ops = .ok (iterRun l ops)) ∧
    (k ≤ 64 → ∃ l : List Word, l.map BitVec.toNat = vals ∧ m.iterU64 = some (GenIter.new m.numOps) ∧
      ∀ ops, CallsOk NthInRange l ops →
        execute (GenIter.step m.numOps) (GenIter.new m.numOps) ops = .ok (iterRun l ops)) ∧
    (k ≤ 64 → ∃ l : List Word, l.map BitVec.toNat = sorted vals ∧ m.iterSortedU64 = some (GenIter.new m.sortedNumOps) ∧
      ∀ ops, CallsOk NthInRange l ops →
        execute (GenIter.step m.sortedNumOps) (GenIter.new m.sortedNumOps) ops = .ok (iterRun l ops)) ∧
    (64 < k → m.iterU64 = none ∧ m.iterSortedU64 = none) := by
  have hs := built_stores h
  refine ⟨?_, ?_, fun hk => ?_, fun hk => ?_, fun hk => ?_⟩
  · obtain ⟨l, l1, l2, l3⟩ := reprValue hs hn
    exact ⟨l, l2, l3, fun ops ho => GenIter.execute_eq l1 ops ho⟩
  · obtain ⟨l, l1, l2, l3⟩ := reprSorted hs hn
    exact ⟨l, l2, l3, fun ops ho => GenIter.execute_eq l1 ops ho⟩
  · obtain ⟨l, l1, l2⟩ := reprNum hs hk hn
    exact ⟨l, l2, by unfold iterU64; rw [hs.bp, if_neg (by omega)], fun ops ho => GenIter.execute_eq l1 ops ho⟩
  · obtain ⟨l, l1, l2⟩ := reprSortedNum hs hk hn
    exact ⟨l, l2, by unfold iterSortedU64; rw [hs.bp, if_neg (by omega)], fun ops ho => GenIter.execute_eq l1 ops ho⟩
  · unfold iterU64 iterSortedU64
    rw [hs.bp, if_pos (by omega), if_pos (by omega)]; exact ⟨rfl, rfl⟩

/-- Consuming the ascending iterator of `[5, 1, 7, 1]` from both ends. -/
example : ∃ m, fromSlice [5#64, 1#64, 7#64, 1#64] 3 = .ok m ∧
    execute (GenIter.step m.sortedNumOps) (GenIter.new m.sortedNumOps) [.next, .nextBack, .next, .next, .next] =
      .ok [.item (some 1#64), .item (some 7#64), .item (some 1#64), .item (some 5#64), .item none] := by
  obtain ⟨m, m1, m2⟩ := C31_from_slice (k := 3) (by omega) (by omega) [5#64, 1#64, 7#64, 1#64]
  obtain ⟨l, l1, _, l2⟩ := (C38_iterators m2 (by decide)).2.2.2.1 (by omega)
  have : l = [1#64, 1#64, 5#64, 7#64] := by
    apply List.map_inj_right (f := BitVec.toNat) (fun a b h => BitVec.eq_of_toNat_eq h) |>.mp
    rw [l1]; exact sorted_eq_of (by decide) (by decide)
  subst this
  exact ⟨m, m1, l2 _ (by simp [CallsOk, NthInRange])⟩

end Vers
