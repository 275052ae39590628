import Verif.Props.Unchecked
import Verif.Props.Rmq
import Verif.Props.Space
import Verif.Proofs.Documented
import Verif.Proofs.EfLen

/-!
# C70: calls outside of the domain of a function end as documented

The documentation says of many functions what they do when an argument is outside of the domain: they panic, leave
the structure as it is, or return a fixed value. What is documented as "may return unpredictable data" promises nothing
and is not listed here.
-/

set_option linter.unusedSimpArgs false

namespace Vers

variable [Profile]
open Spec WM

/-! ## Bit vectors -/

/-- The write leaves the contents of the vector as they are, or it panics. -/
def KeepsOrPanics (v : BV) (r : R BV) : Prop := (∃ v', r = .ok v' ∧ v'.WF ∧ v'.bits = v.bits) ∨ r = .error .oob

/-- The functions that are documented to panic do so: wide appends, and flips behind the end. The unchecked writes to
positions behind the end change no bit of the vector: they touch unused bits of the last limb, or panic. -/
theorem C70_bit_vec (v : BV) :
    (∀ w n, 64 < n → v.appendBits w n = .error .assertion) ∧
    (∀ i, v.len ≤ i → v.flipBit i = .error .assertion) ∧
    (v.WF → ∀ i, v.len ≤ i → KeepsOrPanics v (v.flipBitUnchecked i) ∧ ∀ x, KeepsOrPanics v (v.setUnchecked i x)) := by
  refine ⟨fun w n h => ?_, fun i h => ?_, fun h i hi => ⟨?_, fun x => ?_⟩⟩
  · unfold BV.appendBits; rw [assertR_false (by omega)]; rfl
  · unfold BV.flipBit; rw [assertR_false (by omega)]; rfl
  · unfold BV.flipBitUnchecked
    by_cases hd : i / 64 < v.data.length
    · rw [idx_of_lt hd, ok_bind, setIdx_of_lt hd, ok_bind]
      refine .inl ⟨_, rfl, by simpa [BV.WF] using h, bits_set_behind hd (List.getElem?_eq_getElem hd) ?_⟩
      intro j h1 h2
      rw [BitVec.getLsbD_xor, getLsbD_one_shl _ _ h2, decide_eq_false (by omega), Bool.xor_false]
    · rw [idx_of_ge (by omega)]; exact .inr rfl
  · unfold BV.setUnchecked
    by_cases hd : i / 64 < v.data.length
    · rw [idx_of_lt hd, ok_bind, setIdx_of_lt hd, ok_bind]
      refine .inl ⟨_, rfl, by simpa [BV.WF] using h, bits_set_behind hd (List.getElem?_eq_getElem hd) ?_⟩
      intro j h1 h2
      have hj : j ≠ i % 64 := by omega
      rw [BitVec.getLsbD_or, BitVec.getLsbD_and, BitVec.getLsbD_not, getLsbD_one_shl _ _ h2, decide_eq_false hj,
        BitVec.getLsbD_shiftLeft]
      have : ((x &&& 1#64).getLsbD (j - i % 64) && !decide (j < i % 64)) = false := by
        by_cases hlt : j < i % 64
        · simp [hlt]
        · simp [BitVec.getLsbD_one, show j - i % 64 ≠ 0 by omega]
      have h3 : (!decide (j < i % 64) && (x &&& 1#64).getLsbD (j - i % 64)) = false := by
        rw [Bool.and_comm, this]
      rw [Bool.and_assoc, h3]
      simp [h2]
    · rw [idx_of_ge (by omega)]; exact .inr rfl

example : ∃ v : BV, v.WF ∧ v.bits = [true, false, true] ∧
    (∃ v', v.setUnchecked 3 1#64 = .ok v' ∧ v' ≠ v ∧ v'.bits = v.bits) ∧ v.setUnchecked 64 1#64 = .error .oob := by
  refine ⟨⟨[5#64], 3⟩, by decide, by decide, ⟨⟨[13#64], 3⟩, by decide +revert, ?_, by decide⟩, by decide +revert⟩
  intro h; cases h

/-- Splitting behind the end is documented to panic or to run out of memory. A debug build panics; in a release build
the length of the right part wraps around, and the memory for it (more than 2^57 words, not modelled) is requested first. -/
theorem C70_split (hd : Profile.debug = true) (v : BV) {i : Nat} (hi : v.len < i) :
    v.splitAtUnchecked i = .error .overflow := by
  unfold BV.splitAtUnchecked
  rw [subR_overflow hd hi]; rfl

/-! ## Range minimum queries -/

/-- The two constructors reject vectors that are too long, and the queries of an empty structure panic. (`FastRmq` rejects
shorter vectors, too, see `C29_construction_defect`.) -/
theorem C70_rmq :
    (∀ data : List Word, 2 ^ 32 ≤ data.length → BinRmq.fromVec data = .error .assertion) ∧
    (∀ data : List Word, 2 ^ 40 ≤ data.length → FastRmq.fromVec data = .error .assertion) ∧
    (∃ s, BinRmq.fromVec [] = .ok s ∧ ∀ a b, Panics (s.rangeMinWithRange a b)) ∧
    (∃ s, FastRmq.fromVec [] = .ok s ∧ ∀ a b, Panics (s.rangeMinWithRange a b)) := by
  refine ⟨fun _ h => C28_too_long h, fun _ h => C29_construction_defect (by omega), ?_, ?_⟩
  · refine ⟨⟨[], []⟩, by decide +revert, fun a b => ?_⟩
    unfold BinRmq.rangeMinWithRange BinRmq.rangeMin
    refine .of_bind (failsByPanic_start _ _) fun i => .of_bind (failsByPanic_end _ _) fun j => ?_
    refine .of_bind (failsByPanic_subR _ _) fun d => ?_
    refine ⟨.oob, ?_, by simp, by simp⟩
    rfl
  · refine ⟨⟨[], ⟨[], []⟩, [], []⟩, by decide +revert, fun a b => ?_⟩
    unfold FastRmq.rangeMinWithRange FastRmq.rangeMin
    refine .of_bind (failsByPanic_start _ _) fun i => .of_bind (failsByPanic_end _ _) fun j => ?_
    refine ⟨.oob, ?_, by simp, by simp⟩
    split <;> rfl

/-! ## Wavelet matrix -/

/-- The constructors reject widths that do not divide the length, and widths beyond 64 bits where the elements are
words. (More widths are rejected, see `C31_zero_width` and the deviations of C32.) -/
theorem C70_wavelet_constructors (v : BV) (seq : List Word) (k : Nat) :
    (v.len % k ≠ 0 → Panics (WM.fromBitVec v k) ∧ Panics (WM.fromBitVecPc v k)) ∧
    (64 < k → Panics (WM.fromSlice seq k) ∧ Panics (WM.fromSlicePc seq k) ∧ Panics (WM.fromBitVecPc v k)) := by
  have hc : v.len % k ≠ 0 → Panics (WM.checkMultiple v.len k) := by
    intro h
    unfold WM.checkMultiple
    split
    · exact ⟨_, rfl, by simp, by simp⟩
    · rw [assertR_false h]; exact ⟨_, rfl, by simp, by simp⟩
  refine ⟨fun h => ?_, fun h => ⟨?_, ?_, ?_⟩⟩
  · obtain ⟨p, p1, p2⟩ := hc h
    unfold WM.fromBitVec WM.fromBitVecPc
    rw [p1]
    exact ⟨⟨p, rfl, p2⟩, p, rfl, p2⟩
  · unfold WM.fromSlice
    rw [assertR_false (by omega)]; exact ⟨_, rfl, by simp, by simp⟩
  · unfold WM.fromSlicePc
    rw [assertR_false (by omega)]; exact ⟨_, rfl, by simp, by simp⟩
  · unfold WM.fromBitVecPc
    refine .of_bind ?_ fun _ => ?_
    · intro p hp
      unfold WM.checkMultiple at hp
      split at hp
      · cases hp; simp
      · unfold assertR at hp
        split at hp
        · cases hp
        · cases hp; simp
    · rw [assertR_false (by omega)]; exact ⟨_, rfl, by simp, by simp⟩

example (seq : List Word) : Panics (WM.fromSlice seq 65) := ((C70_wavelet_constructors ⟨[], 0⟩ seq 65).2 (by omega)).1

example : Panics (WM.fromBitVec ⟨[5#64], 4⟩ 3) := ((C70_wavelet_constructors ⟨[5#64], 4⟩ [] 3).1 (by decide)).1

/-- A select query that starts behind the end returns the length of the sequence. -/
theorem C70_select {m : WM} {k : Nat} {vals : List Nat} (h : Built m k vals) {o n : Nat} (ho : vals.length ≤ o)
    (hn : vals.length + n < 2 ^ 64) :
    (∀ sym : BV, sym.WF → k ≤ sym.len → m.selectOffsetUnchecked o n sym = .ok vals.length) ∧
    (k ≤ 64 → ∀ sym : Word, m.selectOffsetU64Unchecked o n sym = .ok vals.length) := by
  have hs := built_stores h
  have key : ∀ c r, SelectsNthOrLen vals c vals.length n r → r = .ok vals.length := by
    intro c r hr
    rcases hr with ⟨p, p1, p2⟩ | ⟨p1, _⟩
    · have := p2.1
      have := p2.2.1
      rw [List.getElem?_eq_none (by omega)] at this
      cases this
    · exact p1
  obtain ⟨h1, h2⟩ := C63_select_partial h n hn
  constructor
  · intro sym hw hl
    unfold WM.selectOffsetUnchecked
    rw [WM.selectGen_min hs, Nat.min_eq_right ho]
    exact key _ _ ((h1 sym hw hl).2 _ (Nat.le_refl _))
  · intro hk sym
    unfold WM.selectOffsetU64Unchecked
    rw [WM.selectGen_min hs, Nat.min_eq_right ho]
    exact key _ _ ((h2 hk sym).2 _ (Nat.le_refl _))

example : (do let m ← WM.fromSlice [5#64, 1#64, 7#64, 1#64] 3; m.selectOffsetU64Unchecked 9 0 1#64) = .ok 4 := by
  decide +revert +kernel

/-- Deviation: the unchecked ranks are documented to panic or to return 0 if the range is out of bounds. They do neither,
they count in the part of the range that is inside of the sequence. -/
theorem C70_rank_defect {m : WM} {k : Nat} {vals : List Nat} (h : Built m k vals) {s e : Nat} (hse : s ≤ e) :
    (∀ sym : BV, sym.WF → k ≤ sym.len →
      m.rankRangeUnchecked s e sym = .ok ((between vals s e).count (bitsToNat (sym.bits.take k)))) ∧
    (k ≤ 64 → ∀ sym : Word, m.rankRangeU64Unchecked s e sym = .ok ((between vals s e).count (sym.toNat % 2 ^ k))) := by
  have hs := built_stores h
  have hb : between vals (min s vals.length) (min e vals.length) = between vals s e := by
    have h1 : vals.take (min e vals.length) = vals.take e := by
      rcases Nat.le_total e vals.length with h | h
      · rw [Nat.min_eq_left h]
      · rw [Nat.min_eq_right h, List.take_length, List.take_of_length_le h]
    unfold between
    rw [h1]
    rcases Nat.le_total s vals.length with h | h
    · rw [Nat.min_eq_left h]
    · rw [Nat.min_eq_right h, List.drop_eq_nil_of_le (by simp), List.drop_eq_nil_of_le (by simp; omega)]
  constructor
  · intro sym hw hl
    have := ((C63_rank h hw hl).1 (min s vals.length) (min e vals.length) (by omega) (by omega)).1
    rw [hb] at this
    rw [← this]
    exact WM.rankGen_min hs _ _ _
  · intro hk sym
    have := ((C63_rank_u64 h hk sym).1 (min s vals.length) (min e vals.length) (by omega) (by omega)).1
    rw [hb] at this
    rw [← this]
    exact WM.rankGen_min hs _ _ _

example : (do let m ← WM.fromSlice [5#64, 1#64, 7#64, 1#64] 3; m.rankRangeU64Unchecked 1 100 1#64) = .ok 2 := by
  decide +revert +kernel

/-- Debug builds: the unchecked order statistics panic, as documented, if the range is empty or out of bounds. (Release builds
return unspecified values, see `C70_wavelet_defect`.) -/
theorem C70_order (hd : Profile.debug = true) {m : WM} {k : Nat} {vals : List Nat} (h : Built m k vals) {s e : Nat}
    (hr : e ≤ s ∨ vals.length < e) :
    (∀ j, Panics (m.quantileUnchecked s e j) ∧ Panics (m.quantileU64Unchecked s e j)) ∧
    Panics (m.rangeMinUnchecked s e) ∧ Panics (m.rangeMinU64Unchecked s e) ∧
    Panics (m.rangeMaxUnchecked s e) ∧ Panics (m.rangeMaxU64Unchecked s e) ∧
    Panics (m.rangeMedianUnchecked s e) ∧ Panics (m.rangeMedianU64Unchecked s e) := by
  have hs := built_stores h
  have hp : ∀ {α : Type} (f : R α), Panics (do dassertR (s < e); dassertR (e ≤ m.len); f) := by
    intro α f
    rw [hs.len]
    by_cases h1 : s < e
    · rw [dassertR_true h1, ok_bind, dassertR_false hd (by omega)]; exact ⟨_, rfl, by simp, by simp⟩
    · rw [dassertR_false hd h1]; exact ⟨_, rfl, by simp, by simp⟩
  have hds : ∀ c : Prop, ∀ [Decidable c], FailsByPanic (dassertR c) := by
    intro c _ p hp
    by_cases hc : c
    · rw [dassertR_true hc] at hp; cases hp
    · rw [dassertR_false hd hc] at hp; cases hp; simp
  have hq : ∀ j, Panics (m.quantileUnchecked s e j) ∧ Panics (m.quantileU64Unchecked s e j) := by
    intro j
    unfold WM.quantileUnchecked WM.quantileU64Unchecked WM.partialQuantile WM.partialQuantileU64
    exact ⟨.of_bind (hds _) fun _ => hp _, .of_bind (hds _) fun _ => hp _⟩
  have h1 : FailsByPanic (maxRank s e) := by
    unfold maxRank
    exact .bind (failsByPanic_subR _ _) fun _ => failsByPanic_subR _ _
  have h2 : FailsByPanic (medianRank s e) := by
    unfold medianRank
    exact .bind (failsByPanic_subR _ _) fun _ => .bind (failsByPanic_subR _ _) fun _ => failsByPanic_ok _
  exact ⟨hq, (hq 0).1, (hq 0).2, .of_bind h1 fun j => (hq j).1, .of_bind h1 fun j => (hq j).2,
    .of_bind h2 fun j => (hq j).1, .of_bind h2 fun j => (hq j).2⟩

/-- Deviation: the unchecked access to the sorted sequence is documented to panic or to return zero, or an empty vector, if
the index is out of bounds. It returns the largest `k`-bit number, whether it occurs or not. -/
theorem C70_sorted_defect {m : WM} {k : Nat} {vals : List Nat} (h : Built m k vals) (hne : vals ≠ []) {i : Nat}
    (hi : vals.length ≤ i) :
    ReturnsBV k (m.getSortedUnchecked i) (2 ^ k - 1) ∧ (k ≤ 64 → ReturnsU64 (m.getSortedU64Unchecked i) (2 ^ k - 1)) := by
  have hs := built_stores h
  have hpos := List.length_pos_iff.mpr hne
  have hg := Seg.of_take (Nat.zero_le vals.length) (Nat.le_refl _)
  constructor
  · unfold getSortedUnchecked quantileUnchecked partialQuantile bitsPer
    rw [hs.bits, hs.len, dassertR_true (show (BV.fromZeros k).len = k from rfl), ok_bind, dassertR_true hpos, ok_bind,
      dassertR_true (Nat.le_refl _), ok_bind, List.drop_zero]
    obtain ⟨t, t1, t2⟩ := quantLoop_beyond (steps_quantBV k) m.data vals 0 0 vals.length i 0 _ (BV.fromZeros k) hs.good
      (by rw [hs.bits]; rfl) hg (by rw [hg.length]; exact hi) (holdsBV_init k)
    refine ⟨t, t1, t2.1, ?_⟩
    have h3 := t2.2.2
    rw [hs.bits, Nat.sub_self, Nat.pow_zero, Nat.mul_one, Nat.zero_mul, Nat.zero_add] at h3
    have h4 := natToBits_bitsToNat t.bits
    rw [h3, show t.bits.length = k by rw [BV.length_bits, t2.2.1]] at h4
    exact h4.symm
  · intro hk
    unfold getSortedU64Unchecked quantileU64Unchecked partialQuantileU64 bitsPer
    rw [hs.bits, hs.len, dassertR_true hk, ok_bind, dassertR_true hpos, ok_bind,
      dassertR_true (Nat.le_refl _), ok_bind, List.drop_zero]
    obtain ⟨t, t1, t2⟩ := quantLoop_beyond (steps_quantU k hk) m.data vals 0 0 vals.length i 0 _ 0#64 hs.good
      (by rw [hs.bits]; rfl) hg (by rw [hg.length]; exact hi) ⟨by simp, by simp⟩
    refine ⟨t, t1, ?_⟩
    have := t2.1
    rw [hs.bits] at this
    simpa using this

example : (do let m ← WM.fromSlice [5#64, 1#64, 6#64, 1#64] 3; m.getSortedU64Unchecked 4) = .ok 7#64 := by
  decide +revert +kernel

example (hd : Profile.debug = true) :
    (do let m ← WM.fromSlice [5#64, 1#64, 6#64, 1#64] 3; m.rangeMinU64Unchecked 2 9) = .error .assertion := by
  decide +revert +kernel

/-- Deviation: the unchecked access to the sequence, and the unchecked ranks of a symbol that is too short, are documented to
panic or to return zero, or an empty vector, if they are out of bounds. They may return other values, and so do the order statistics of
release builds. -/
theorem C70_wavelet_defect :
    (do let m ← WM.fromSlice [5#64, 1#64, 7#64, 1#64] 3; let v ← m.getValueUnchecked 9; pure v.bits) =
      .ok [true, false, false] ∧
    (do let m ← WM.fromSlice [5#64, 1#64, 7#64, 1#64] 3; m.rankUnchecked 4 ⟨[1#64], 1⟩) = .ok 2 ∧
    (Profile.debug = false →
      (do let m ← WM.fromSlice [5#64, 1#64, 7#64, 1#64] 3; m.quantileU64Unchecked 2 9 1) = .ok 7#64 ∧
      (do let m ← WM.fromSlice [5#64, 1#64, 7#64, 1#64] 3; m.rangeMinU64Unchecked 2 9) = .ok 1#64) := by
  refine ⟨by decide +revert +kernel, by decide +revert +kernel, ?_⟩
  decide +revert +kernel

/-! ## Elias-Fano -/

/-- Partial: debug builds, and an index of at least nine times the length. The unchecked access to an index behind the end panics,
as documented. Missing: indices closer to the end, see `C70_elias_fano_defect`. -/
theorem C70_elias_fano_partial (hd : Profile.debug = true) {fl : Nat → Nat} (hfl : LogLike fl) {data : List Word}
    (hs : Sorted data) (hl : data.length < 2 ^ 60) :
    ∃ ef, EF.fromSlice fl data = .ok ef ∧ ∀ i, 9 * data.length + 18 ≤ i → ef.getUnchecked i = .error .overflow := by
  have key : ∀ (ef : EF) (i : Nat), ef.upper.Inv → ef.upper.len ≤ i → ef.getUnchecked i = .error .overflow := by
    intro ef i hi hlt
    unfold EF.getUnchecked
    rw [RsVec.select_ge hi false (Nat.le_trans (C_le _ _ _) hlt), ok_bind]
    rcases Nat.lt_or_ge ef.upper.len i with h | h
    · rw [subR_overflow hd h]; rfl
    · rw [subR_of_le h, ok_bind, subR_overflow hd (by omega)]; rfl
  by_cases hne : data = []
  · subst hne
    obtain ⟨rs, r1, r2, -, r3⟩ := fromBitVec_inv (v := BV.new) (by decide)
    refine ⟨_, by unfold EF.fromSlice; rw [if_pos rfl, r1]; rfl, fun i hi => key _ i r2 ?_⟩
    show rs.len ≤ i
    rw [r3]; exact Nat.zero_le _
  · obtain ⟨ef, e1, e2, -⟩ := fromSlice_inv hfl hs hne hl
    exact ⟨ef, e1, fun i hi => key ef i e2.up (Nat.le_trans (upper_len_le hfl hne e1 hs hl) hi)⟩

example (hd : Profile.debug = true) := C70_elias_fano_partial hd logLike_ceilLog2 (data := [3#64, 41#64])
  (by simp [Sorted]) (by decide)

/-- Deviation: the unchecked access to an index behind the end is documented to panic. The vector with a single
element returns a value, which is none of its elements, for the index 1. -/
theorem C70_elias_fano_defect {x : Word} (hx : x.toNat + 2 < 2 ^ 64) :
    ∃ ef, EF.fromSlice ceilLog2 [x] = .ok ef ∧ ef.len = 1 ∧ ef.get 0 = .ok (some x) ∧
      ef.getUnchecked 1 = .ok (x + 2#64) := by
  obtain ⟨rs, r1, r2, r3, r4⟩ := fromBitVec_inv (v := ⟨[2#64], 3⟩) (by decide)
  have hsub : subW x x = .ok 0#64 := by unfold subW; rw [if_pos (Nat.le_refl _), BitVec.sub_self]
  have e1 : EF.fromSlice ceilLog2 [x] = .ok ⟨rs, ⟨[0#64], 1⟩, x, x, 1, 1⟩ := by
    obtain ⟨hw, hu, hm, hp, hq, hf, ha, -⟩ := single_steps
    have hz : (0#64 >>> 1).toNat = 0 := by decide
    unfold EF.fromSlice
    rw [if_neg (by simp)]
    unfold EF.fromNonEmpty
    rw [dassertR_true (show EF.windowsSorted [x] = true from rfl), ok_bind, idx_of_lt (by simp), ok_bind,
      idx_of_lt (by simp), ok_bind]
    simp only [List.length_cons, List.length_nil, Nat.zero_add, Nat.sub_self, List.getElem_cons_zero]
    rw [hsub, ok_bind, BitVec.toNat_ofNat, Nat.zero_mod, hw, ok_bind, assertR_true (by omega), ok_bind, hz, hu, ok_bind,
      hm, ok_bind]
    simp only [EF.fillLoop]
    rw [hsub, ok_bind, hz, hp, ok_bind, hq, ok_bind, hf, ok_bind, ha, ok_bind]
    simp only [pure_bind]
    rw [r1]; rfl
  refine ⟨_, e1, rfl, ?_, ?_⟩
  · obtain ⟨ef, g1, -, g3⟩ := C21_get logLike_ceilLog2 (data := [x]) (List.pairwise_singleton _ _) (by simp)
    rw [e1] at g1
    cases g1
    exact g3 0
  · unfold EF.getUnchecked
    rw [RsVec.select_ge r2 false (by rw [r3, r4]; decide), ok_bind]
    simp only [r4]
    rw [subR_of_le (by omega), ok_bind, subR_of_le (by omega), ok_bind]
    have hl : EF.lowAt ⟨rs, ⟨[0#64], 1⟩, x, x, 1, 1⟩ 1 = .ok 0#64 := by
      show (mulU 1 1 >>= fun p => BV.getBitsUnchecked ⟨[0#64], 1⟩ p 1) = .ok 0#64
      exact single_steps.2.2.2.2.2.2.2
    rw [hl, ok_bind]
    obtain ⟨y, y1, y2⟩ := addW_of_lt (a := (BitVec.ofNat 64 (3 - 1 - 1) <<< 1) ||| 0#64) (b := x) (by
      have : ((BitVec.ofNat 64 (3 - 1 - 1) <<< 1) ||| 0#64).toNat = 2 := by decide
      omega)
    show addW ((BitVec.ofNat 64 (3 - 1 - 1) <<< 1) ||| 0#64) x = _
    rw [y1]
    congr 1
    apply BitVec.eq_of_toNat_eq
    have h2 : ((BitVec.ofNat 64 (3 - 1 - 1) <<< 1) ||| 0#64).toNat = 2 := by decide
    rw [y2, h2, BitVec.toNat_add]
    simp only [BitVec.toNat_ofNat]
    omega

example : (do let ef ← EF.fromSlice ceilLog2 [41#64]; ef.getUnchecked 1) = .ok 43#64 := by decide +revert +kernel

example (hd : Profile.debug = true) :
    (do let ef ← EF.fromSlice ceilLog2 [3#64, 41#64]; ef.getUnchecked 36) = .error .overflow := by
  decide +revert +kernel

end Vers
