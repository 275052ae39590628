import Verif.Proofs.BitVecOps

/-! # Correctness of the bit vector operations, part 2 -/

set_option linter.unusedSimpArgs false

namespace Vers

variable [Profile]
open Spec
namespace BV

/-! ## reading -/

omit [Profile] in
theorem getUnchecked_eq {v : BV} {i : Nat} (hi : i < 64 * v.data.length) :
    v.getUnchecked i = .ok (b2w (lbit v.data i)) := by
  unfold getUnchecked
  have hlt : i / 64 < v.data.length := by omega
  rw [idx_of_lt hlt, ok_bind, shr_and_one]
  unfold lbit
  rw [List.getElem?_eq_getElem hlt]; rfl

omit [Profile] in
theorem lt_of_wf {v : BV} (h : v.WF) {i : Nat} (hi : i < v.len) : i < 64 * v.data.length := by
  unfold WF at h; omega

omit [Profile] in
theorem get_eq {v : BV} (h : v.WF) (i : Nat) : v.get i = .ok (v.bits[i]?.map b2w) := by
  unfold get
  rw [bits_getElem?]
  by_cases hi : i < v.len
  · rw [if_neg (by omega), getUnchecked_eq (lt_of_wf h hi)]
    simp [hi]
  · rw [if_pos (by omega)]; simp [hi]

omit [Profile] in
theorem isBitSet_eq {v : BV} (h : v.WF) (i : Nat) : v.isBitSet i = .ok v.bits[i]? := by
  unfold isBitSet isBitSetUnchecked
  rw [bits_getElem?]
  by_cases hi : i < v.len
  · rw [if_neg (by omega), getUnchecked_eq (lt_of_wf h hi)]
    simp [hi]
  · rw [if_pos (by omega)]; simp [hi]

/-- `get_bits_unchecked` on raw limbs -/
theorem getBitsRaw_eq {d : List Word} {pos n : Nat} (hn : n ≤ 64) (hd : pos + n ≤ 64 * d.length)
    (hd' : pos < 64 * d.length) :
    ∃ w, getBitsRaw d pos n = .ok w ∧ ∀ j, w.getLsbD j = (decide (j < n) && lbit d (pos + j)) := by
  unfold getBitsRaw
  have hlt : pos / 64 < d.length := by omega
  rw [dassertR_true hn, ok_bind, idx_of_lt hlt, ok_bind]
  simp only [addU_of_lt (show pos % 64 + n < 2 ^ 64 by omega), ok_bind]
  by_cases hs : pos % 64 + n ≤ 64
  · simp only [hs, if_true]
    refine ⟨_, rfl, ?_⟩
    intro j
    rw [BitVec.getLsbD_and, lowMask_getLsbD _ _ hn, BitVec.getLsbD_ushiftRight]
    by_cases hj : j < n
    · have : pos + j = 64 * (pos / 64) + (pos % 64 + j) := by omega
      rw [this, lbit_word (by omega), List.getElem?_eq_getElem hlt]
      simp [hj]
    · simp [hj]
  · simp only [hs, if_false]
    have hlt2 : pos / 64 + 1 < d.length := by omega
    rw [idx_of_lt hlt2, ok_bind, Nat.mod_eq_of_lt (by omega : 64 - pos % 64 < 64)]
    refine ⟨_, rfl, ?_⟩
    intro j
    rw [BitVec.getLsbD_and, lowMask_getLsbD _ _ hn, BitVec.getLsbD_or, BitVec.getLsbD_ushiftRight,
      BitVec.getLsbD_shiftLeft]
    by_cases hj : j < n
    · by_cases hj2 : pos % 64 + j < 64
      · have : pos + j = 64 * (pos / 64) + (pos % 64 + j) := by omega
        rw [this, lbit_word hj2, List.getElem?_eq_getElem hlt]
        have h3 : j < 64 - pos % 64 := by omega
        simp [hj, h3]
      · have : pos + j = 64 * (pos / 64 + 1) + (j - (64 - pos % 64)) := by omega
        rw [this, lbit_word (by omega), List.getElem?_eq_getElem hlt2,
          BitVec.getLsbD_of_ge _ (pos % 64 + j) (by omega)]
        have h3 : ¬ (j < 64 - pos % 64) := by omega
        have h4 : j < 64 := by omega
        simp [hj, h3, h4]
    · simp [hj]

theorem getBitsRaw_toNat {d : List Word} {pos n : Nat} (hn : n ≤ 64)
    (hd : pos + n ≤ 64 * d.length) (hd' : pos < 64 * d.length) :
    ∃ w, getBitsRaw d pos n = .ok w ∧
      w.toNat = bitsToNat ((List.range n).map fun j => lbit d (pos + j)) := by
  obtain ⟨w, h1, h2⟩ := getBitsRaw_eq hn hd hd'
  refine ⟨w, h1, word_toNat_eq_bitsToNat (by simpa using hn) ?_⟩
  intro i hi
  rw [h2, getElem?_map_range]
  by_cases h : i < n <;> simp [h]

omit [Profile] in
theorem map_lbit_eq_drop_take (v : BV) (pos n : Nat) (h : pos + n ≤ v.len) :
    (List.range n).map (fun j => lbit v.data (pos + j)) = (v.bits.drop pos).take n := by
  apply List.ext_getElem?
  intro i
  rw [getElem?_map_range, List.getElem?_take, List.getElem?_drop, bits_getElem?]
  by_cases h' : i < n
  · rw [if_pos h', if_pos h', if_pos (by omega)]
  · rw [if_neg h', if_neg h']

theorem getBits_ok {v : BV} (h : v.WF) {pos n : Nat} (h1 : 1 ≤ n) (h2 : n ≤ 64)
    (h3 : pos + n ≤ v.len) (h4 : pos + n < 2 ^ 64) :
    ∃ w, v.getBits pos n = .ok (some w) ∧ w.toNat = bitsToNat ((v.bits.drop pos).take n) := by
  have hd := lt_of_wf h (show pos + n - 1 < v.len by omega)
  obtain ⟨w, hw, hw2⟩ := getBitsRaw_toNat (d := v.data) (pos := pos) h2 (by omega) (by omega)
  refine ⟨w, ?_, ?_⟩
  · unfold getBits getBitsUnchecked
    rw [if_neg (by omega), addU_of_lt h4, ok_bind, if_neg (by omega), hw]; rfl
  · rw [hw2, map_lbit_eq_drop_take _ _ _ h3]

theorem getBits_none {v : BV} {pos n : Nat} (h : n = 0 ∨ 64 < n ∨ v.len < pos + n ∧ pos + n < 2 ^ 64) :
    v.getBits pos n = .ok none := by
  unfold getBits
  split
  · rfl
  · rw [addU_of_lt (by omega), ok_bind, if_pos (by omega)]; rfl

theorem getBits_overflow (hd : Profile.debug = true) {v : BV} {pos n : Nat} (h1 : 1 ≤ n) (h2 : n ≤ 64)
    (h4 : 2 ^ 64 ≤ pos + n) :
    v.getBits pos n = .error .overflow := by
  unfold getBits
  rw [if_neg (by omega), addU_overflow hd h4]; rfl

/-! ## set and flip -/

omit [Profile] in
theorem setUnchecked_eq {v : BV} (h : v.WF) {i : Nat} (hi : i < v.len) (x : Word) :
    ∃ v', v.setUnchecked i x = .ok v' ∧ v'.WF ∧ v'.len = v.len ∧
      v'.bits = v.bits.set i (x.getLsbD 0) := by
  have hlt : i / 64 < v.data.length := by unfold WF at h; omega
  unfold setUnchecked
  rw [idx_of_lt hlt, ok_bind, setIdx_of_lt hlt, ok_bind]
  refine ⟨_, rfl, ?_, rfl, ?_⟩
  · unfold WF at *; simpa using h
  · apply bits_eq_of (by simp)
    intro j hj
    have hj' : j < v.len := hj
    simp only
    rw [lbit_set hlt, List.getElem?_set, bits_getElem?, if_pos hj']
    by_cases hij : i = j
    · subst hij
      simp only [if_true, BitVec.getLsbD_or, BitVec.getLsbD_and, BitVec.getLsbD_shiftLeft,
        BitVec.getLsbD_not, getLsbD_and_one, one_shl_getLsbD _ _ (show i % 64 < 64 by omega)]
      simp [hi]
      omega
    · rw [if_neg hij]
      split
      · rename_i h'
        have hne : ¬ (j % 64 = i % 64) := by omega
        have hlb : lbit v.data j = (v.data[i / 64]).getLsbD (j % 64) := by
          unfold lbit; rw [h', List.getElem?_eq_getElem hlt]; rfl
        rw [hlb]
        simp only [BitVec.getLsbD_or, BitVec.getLsbD_and, BitVec.getLsbD_shiftLeft,
          BitVec.getLsbD_not, getLsbD_and_one, one_shl_getLsbD _ _ (show i % 64 < 64 by omega)]
        have h64 : j % 64 < 64 := by omega
        simp [hne, h64]
        omega
      · rfl

omit [Profile] in
theorem flipBitUnchecked_eq {v : BV} (h : v.WF) {i : Nat} (hi : i < v.len) :
    ∃ v', v.flipBitUnchecked i = .ok v' ∧ v'.WF ∧ v'.len = v.len ∧
      v'.bits = v.bits.modify i (fun b => !b) := by
  have hlt : i / 64 < v.data.length := by unfold WF at h; omega
  unfold flipBitUnchecked
  rw [idx_of_lt hlt, ok_bind, setIdx_of_lt hlt, ok_bind]
  refine ⟨_, rfl, ?_, rfl, ?_⟩
  · unfold WF at *; simpa using h
  · apply bits_eq_of (by simp)
    intro j hj
    have hj' : j < v.len := hj
    simp only
    rw [lbit_set hlt, List.getElem?_modify, bits_getElem?, if_pos hj']
    by_cases hij : i = j
    · subst hij
      have hlb : lbit v.data i = (v.data[i / 64]).getLsbD (i % 64) := by
        unfold lbit; rw [List.getElem?_eq_getElem hlt]; rfl
      simp only [if_true, BitVec.getLsbD_xor, one_shl_getLsbD _ _ (show i % 64 < 64 by omega)]
      simp [hlb]
    · simp only [hij, if_false, id]
      split
      · rename_i h'
        have hne : ¬ (j % 64 = i % 64) := by omega
        have hlb : lbit v.data j = (v.data[i / 64]).getLsbD (j % 64) := by
          unfold lbit; rw [h', List.getElem?_eq_getElem hlt]; rfl
        rw [hlb]
        simp only [BitVec.getLsbD_xor, one_shl_getLsbD _ _ (show i % 64 < 64 by omega)]
        simp [hne]
      · simp

/-! ## drop_last -/

omit [Profile] in
theorem dropLast_wf {v : BV} (h : v.WF) (n : Nat) : (v.dropLast n).WF := by
  unfold WF dropLast at *
  split
  · rfl
  · simp only
    split
    · simp; omega
    · omega

omit [Profile] in
theorem dropLast_bits (v : BV) (n : Nat) :
    (v.dropLast n).bits = v.bits.take (v.len - n) := by
  unfold dropLast
  by_cases hn : n > v.len
  · rw [if_pos hn, show v.len - n = 0 by omega]; rfl
  · rw [if_neg hn]
    apply bits_eq_of
    · simp
    · intro i hi
      simp only at hi
      rw [List.getElem?_take, if_pos hi, bits_getElem?, if_pos (by omega)]
      simp only
      split
      · rw [lbit_take (by omega)]
      · rfl

/-! ## counting -/

omit [Profile] in
theorem count_bits_eq_cnt (v : BV) (b : Bool) :
    v.bits.count b = cnt (fun j => lbit v.data j == b) v.len := by
  have := count_take_eq_cnt v.bits b (lbit v.data)
    (fun i hi => by rw [bits_getElem?, if_pos (by simpa using hi)]) v.len (by simp)
  rw [← this, List.take_of_length_le (by simp)]

omit [Profile] in
theorem count_take_bits (v : BV) (b : Bool) (i : Nat) (hi : i ≤ v.len) :
    (v.bits.take i).count b = cnt (fun j => lbit v.data j == b) i :=
  count_take_eq_cnt v.bits b (lbit v.data)
    (fun i hi => by rw [bits_getElem?, if_pos (by simpa using hi)]) i (by simpa using hi)

omit [Profile] in
theorem cnt_masked {f g : Nat → Bool} {k n : Nat} (hk : k ≤ n)
    (h : ∀ i, i < n → f i = (decide (i < k) && g i)) : cnt f n = cnt g k := by
  obtain ⟨m, rfl⟩ := Nat.exists_eq_add_of_le hk
  rw [cnt_add, cnt_congr (g := g) (fun i hi => by rw [h i (by omega)]; simp [hi])]
  rw [cnt_eq_zero (f := fun j => f (k + j)) (fun i hi => by rw [h _ (by omega)]; simp; intro; omega)]
  rfl

omit [Profile] in
theorem popcount_masked (w : Word) (k : Nat) (hk : k < 64) :
    popcount (w &&& ((1#64 <<< k) - 1#64)) = cnt w.getLsbD k := by
  unfold popcount
  apply cnt_masked (by omega)
  intro i _
  rw [BitVec.getLsbD_and, mask_getLsbD _ _ hk, Bool.and_comm]

omit [Profile] in
theorem countOnes_eq {v : BV} (h : v.WF) : v.countOnes = .ok (v.bits.count true) := by
  unfold countOnes
  have hl : v.len / 64 ≤ v.data.length := by unfold WF at h; omega
  have hc : v.bits.count true = cnt (lbit v.data) v.len := by
    rw [count_bits_eq_cnt]; apply cnt_congr; intro i _; simp
  rw [prefixR_of_le hl, ok_bind, hc]
  by_cases ha : v.len % 64 = 0
  · simp only [ha, ne_eq, not_true_eq_false, if_false]
    rw [← cnt_lbit_mul _ _ hl, show 64 * (v.len / 64) = v.len by omega]; rfl
  · simp only [ha, ne_eq, not_false_eq_true, if_true]
    have hlt : v.len / 64 < v.data.length := by unfold WF at h; omega
    have hlast : v.data.getLast? = some (v.data[v.len / 64]) := by
      rw [List.getLast?_eq_getElem?, show v.data.length - 1 = v.len / 64 by unfold WF at h; omega]
      simp
    rw [hlast, unwrapR_some, ok_bind, popcount_masked _ _ (by omega), ← cnt_lbit_mul _ _ hl]
    have e : v.len = 64 * (v.len / 64) + v.len % 64 := by omega
    have : cnt (lbit v.data) v.len = cnt (lbit v.data) (64 * (v.len / 64)) +
        cnt (v.data[v.len / 64]).getLsbD (v.len % 64) := by
      conv => lhs; rw [e]
      rw [cnt_add]
      congr 1
      apply cnt_congr
      intro i hi
      rw [lbit_word (by omega), List.getElem?_eq_getElem hlt]; rfl
    rw [this]; rfl

omit [Profile] in
theorem count_true_add_false (l : List Bool) : l.count true + l.count false = l.length := by
  induction l with
  | nil => rfl
  | cons b l ih => cases b <;> simp <;> omega

theorem countZeros_eq {v : BV} (h : v.WF) : v.countZeros = .ok (v.bits.count false) := by
  unfold countZeros
  have := count_true_add_false v.bits
  rw [length_bits] at this
  rw [countOnes_eq h, ok_bind, subR_of_le (by omega)]
  congr 1; omega

end BV
end Vers
