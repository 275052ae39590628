import Verif.Proofs.BuildSteps
import Verif.Props.Wavelet

/-! # Property C76: the time of the constructors

`fromVecC`, `fromSliceC` etc. (`Model/BuildSteps.lean`) are the constructors with a counter for the iterations of their
innermost loops and the words of the vectors they create; `lazy` tells whether the words of vectors of zeros are left
out. `Within c f n`: the counted constructor `c` has the result of the constructor `f`, and takes at most `n` steps (also
if it panics). `log2Ceil n` is the least `l` with `n ≤ 2^l`. -/

namespace Vers

variable [Profile]
open Counted WM

omit [Profile] in
/-- `log2Ceil` is the logarithm, rounded up. -/
theorem C76_log (n l : Nat) : log2Ceil n ≤ l ↔ n ≤ 2 ^ l := by
  unfold log2Ceil
  by_cases h : n ≤ 1
  · rw [if_pos h]
    have := Nat.two_pow_pos l
    exact ⟨fun _ => by omega, fun _ => Nat.zero_le _⟩
  · rw [if_neg h, show (Nat.log2 (n - 1) + 1 ≤ l ↔ Nat.log2 (n - 1) < l) from Iff.rfl, Nat.log2_lt (by omega)]
    omega

example : log2Ceil 8 = 3 ∧ log2Ceil 9 = 4 := by decide

/-- `RsVec::from_bit_vec` takes at most two steps more than the vector has words. -/
theorem C76_rank_select (v : BV) : Within (RsVec.fromBitVecC v) (RsVec.fromBitVec v) (v.data.length + 2) :=
  RsVec.fromBitVecC_within v

example : (RsVec.fromBitVecC ⟨[5#64, 6#64], 70⟩).steps = 4 := by decide +revert +kernel

/-- `BinaryRmq::from_vec` takes O(n log n) steps. -/
theorem C76_binary_rmq (lazy : Bool) (data : List Word) :
    Within (BinRmq.fromVecC lazy data) (BinRmq.fromVec data) (2 * (data.length * (log2Ceil data.length + 1))) :=
  BinRmq.fromVecC_within lazy data

example : (BinRmq.fromVecC false [3#64, 1#64, 2#64]).steps = 18 ∧
    (BinRmq.fromVecC false [3#64, 1#64, 2#64]).result.isOk = true := by decide +revert +kernel

/-- `FastRmq::from_vec` takes 2 steps for each element, and steps in O(b log b) for the `b` blocks of 128 elements. -/
theorem C76_fast_rmq (lazy : Bool) (data : List Word) :
    Within (FastRmq.fromVecC lazy data) (FastRmq.fromVec data)
      (2 * data.length + (data.length + 127) / 128
        + 2 * ((data.length + 127) / 128 * (log2Ceil ((data.length + 127) / 128) + 1))) :=
  FastRmq.fromVecC_within lazy data

example : (FastRmq.fromVecC false [3#64, 1#64, 2#64]).steps = 7 ∧
    (FastRmq.fromVecC false [3#64, 1#64, 2#64]).result.isOk = true := by decide +revert +kernel

/-- As documented, these are O(n log n) steps. -/
theorem C76_fast_rmq_log (lazy : Bool) (data : List Word) :
    Within (FastRmq.fromVecC lazy data) (FastRmq.fromVec data) (5 * (data.length * (log2Ceil data.length + 1))) := by
  refine (C76_fast_rmq lazy data).mono ?_
  generalize data.length = n
  have h1 : (n + 127) / 128 ≤ n := by omega
  have h2 := Nat.mul_le_mul h1 (Nat.add_le_add_right (log2Ceil_mono h1) 1)
  have h3 : n ≤ n * (log2Ceil n + 1) := Nat.le_mul_of_pos_right _ (Nat.succ_pos _)
  omega

example : 7 ≤ 5 * (3 * (log2Ceil 3 + 1)) := by decide

omit [Profile] in
theorem sort_steps_bound (k n : Nat) : 2 * n + k * (2 * n + 2 * ((n + 63) / 64) + 2) ≤ 4 * ((k + 1) * (n + 1)) := by
  have h1 : k * (2 * n + 2 * ((n + 63) / 64) + 2) ≤ k * (4 * (n + 1)) := Nat.mul_le_mul_left _ (by omega)
  have h2 : k * (4 * (n + 1)) = 4 * (k * (n + 1)) := Nat.mul_left_comm _ _ _
  have h3 : (k + 1) * (n + 1) = k * (n + 1) + (n + 1) := Nat.succ_mul _ _
  omega

/-- `WaveletMatrix::from_slice` takes O(kn) steps for `n` elements of `k` bits; the documented bound is O(kn log n). -/
theorem C76_from_slice (lazy : Bool) (seq : List Word) (k : Nat) :
    Within (fromSliceC lazy seq k) (fromSlice seq k) (4 * ((k + 1) * (seq.length + 1))) :=
  free_bind fun _ => (permutationSortingC_within lazy k seq.length _).mono (sort_steps_bound _ _)

example : (fromSliceC false [5#64, 0#64, 3#64] 3).steps = 33 ∧
    (fromSliceC false [5#64, 0#64, 3#64] 3).result.isOk = true := by decide +revert +kernel

/-- The same for `WaveletMatrix::from_bit_vec`. -/
theorem C76_from_bit_vec (lazy : Bool) (v : BV) (k : Nat) :
    Within (WM.fromBitVecC lazy v k) (WM.fromBitVec v k) (4 * ((k + 1) * (v.len / k + 1))) :=
  free_bind fun _ => (permutationSortingC_within lazy k (v.len / k) _).mono (sort_steps_bound _ _)

example : (WM.fromBitVecC false ⟨[0b011000101#64], 9⟩ 3).steps = 33 ∧
    (WM.fromBitVecC false ⟨[0b011000101#64], 9⟩ 3).result.isOk = true := by decide +revert +kernel

omit [Profile] in
theorem pc_steps_bound (k n : Nat) :
    2 * 2 ^ k + 2 * 2 ^ (k - 1 + 1) + n + (n + 63) / 64 + k * (n + (n + 63) / 64) + k * ((n + 63) / 64 + 2)
      ≤ 6 * 2 ^ k + 4 * ((k + 1) * (n + 1)) := by
  have h1 : k * (n + (n + 63) / 64) + k * ((n + 63) / 64 + 2) ≤ k * (4 * (n + 1)) := by
    rw [← Nat.mul_add]; exact Nat.mul_le_mul_left _ (by omega)
  have h2 : k * (4 * (n + 1)) = 4 * (k * (n + 1)) := Nat.mul_left_comm _ _ _
  have h3 : (k + 1) * (n + 1) = k * (n + 1) + (n + 1) := Nat.succ_mul _ _
  have h4 : 2 ^ (k - 1 + 1) ≤ 2 * 2 ^ k := by
    cases k with
    | zero => decide
    | succ k => show 2 ^ (k + 1) ≤ _; have := Nat.two_pow_pos (k + 1); omega
  omega

/-- The prefix counting constructors take O(kn + 2^k) steps. Missing for the full property: the documented bound is
O(kn), see `C76_prefix_counting_defect`. -/
theorem C76_prefix_counting_partial (lazy : Bool) (k : Nat) :
    (∀ seq, Within (fromSlicePcC lazy seq k) (fromSlicePc seq k) (6 * 2 ^ k + 4 * ((k + 1) * (seq.length + 1)))) ∧
    (∀ v, Within (fromBitVecPcC lazy v k) (fromBitVecPc v k) (6 * 2 ^ k + 4 * ((k + 1) * (v.len / k + 1)))) :=
  ⟨fun _ => free_bind fun _ => (prefixCountingC_within lazy k _ _ _).mono (pc_steps_bound _ _),
    fun _ => free_bind fun _ => free_bind fun _ => (prefixCountingC_within lazy k _ _ _).mono (pc_steps_bound _ _)⟩

example : (fromSlicePcC false [5#64, 0#64, 3#64] 3).steps = 47 ∧
    (fromSlicePcC false [5#64, 0#64, 3#64] 3).result.isOk = true := by decide +revert +kernel

/-- Every run of the prefix counting constructors that does not panic takes at least `2^k` steps, whatever the number of
elements, and even if vectors of zeros are free: the loops over the histogram and the borders visit all prefixes of all
lengths. The documented bound O(kn) does not hold. -/
theorem C76_prefix_counting_defect (lazy : Bool) {k : Nat} (hk : 3 ≤ k) :
    (∀ seq m, fromSlicePc seq k = .ok m → 2 ^ k ≤ (fromSlicePcC lazy seq k).steps) ∧
    (∀ v m, fromBitVecPc v k = .ok m → 2 ^ k ≤ (fromBitVecPcC lazy v k).steps) := by
  have hp : k + 3 ≤ 2 ^ k := by
    have : ∀ n, n + 6 ≤ 2 ^ (n + 3) := fun n => by
      induction n with
      | zero => decide
      | succ n ih => rw [show n + 1 + 3 = n + 3 + 1 from rfl, Nat.pow_succ]; omega
    have := this (k - 3)
    rw [show k - 3 + 3 = k by omega] at this
    omega
  refine ⟨fun seq m h => ?_, fun v m h => ?_⟩
  · have hs := ((C76_prefix_counting_partial lazy k).1 seq).same
    rw [h] at hs
    unfold fromSlicePcC at hs ⊢
    obtain ⟨_, -, h1, e⟩ := ok_split hs
    have := prefixCountingC_steps (by omega) h1
    rw [e]; omega
  · have hs := ((C76_prefix_counting_partial lazy k).2 v).same
    rw [h] at hs
    unfold fromBitVecPcC at hs ⊢
    obtain ⟨_, -, h1, e⟩ := ok_split hs
    obtain ⟨_, -, h1, e'⟩ := ok_split h1
    have := prefixCountingC_steps (by omega) h1
    rw [e, e']; omega

/-- One element of 40 bits: more than a trillion steps, where the sorting constructor takes at most 328. -/
example : ∃ m, fromSlicePc [7#64] 40 = .ok m ∧ 2 ^ 40 ≤ (fromSlicePcC true [7#64] 40).steps ∧
    (fromSliceC false [7#64] 40).steps ≤ 328 := by
  obtain ⟨m, h, -⟩ := C31_from_slice_pc (k := 40) (by decide) (by decide) (seq := [7#64]) (by simp)
  exact ⟨m, h, (C76_prefix_counting_defect true (by decide)).1 _ m h, (C76_from_slice false [7#64] 40).le⟩

end Vers
