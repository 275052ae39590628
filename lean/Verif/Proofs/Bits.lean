import Verif.Proofs.Base
import Verif.Abs

/-! # The abstraction from limbs to bits -/

namespace Vers

variable [Profile]

omit [Profile] in
theorem lbit_word {d : List Word} {k j : Nat} (hj : j < 64) :
    lbit d (64 * k + j) = (d[k]?.getD 0#64).getLsbD j := by
  unfold lbit
  rw [show (64 * k + j) / 64 = k by omega, show (64 * k + j) % 64 = j by omega]

omit [Profile] in
theorem lbit_eq_of_some {d : List Word} {i : Nat} {w : Word} (h : d[i / 64]? = some w) :
    lbit d i = w.getLsbD (i % 64) := by simp [lbit, h]

omit [Profile] in
theorem lbit_set {d : List Word} {k : Nat} {w : Word} (hk : k < d.length) (i : Nat) :
    lbit (d.set k w) i = if i / 64 = k then w.getLsbD (i % 64) else lbit d i := by
  unfold lbit
  rw [List.getElem?_set]
  by_cases h : k = i / 64
  · subst h; simp [hk]
  · simp [h, Ne.symm h]

omit [Profile] in
theorem lbit_push (d : List Word) (w : Word) (i : Nat) :
    lbit (d ++ [w]) i = if i / 64 = d.length then w.getLsbD (i % 64) else lbit d i := by
  unfold lbit
  by_cases h : i / 64 < d.length
  · rw [List.getElem?_append_left h, if_neg (by omega)]
  · rw [List.getElem?_append_right (by omega)]
    by_cases h' : i / 64 = d.length
    · simp [h']
    · rw [if_neg h']
      rw [List.getElem?_eq_none (by simp; omega), List.getElem?_eq_none (by omega)]

omit [Profile] in
theorem lbit_ge {d : List Word} {i : Nat} (h : 64 * d.length ≤ i) : lbit d i = false := by
  unfold lbit
  rw [List.getElem?_eq_none (by omega)]; simp

omit [Profile] in
theorem lbit_take {d : List Word} {n i : Nat} (h : i < 64 * n) : lbit (d.take n) i = lbit d i := by
  unfold lbit
  rw [List.getElem?_take, if_pos (by omega)]

omit [Profile] in
theorem getElem?_of_lt_mul {d : List Word} {i : Nat} (h : i < 64 * d.length) :
    ∃ w, d[i / 64]? = some w :=
  ⟨d[i / 64]'(by omega), by simp⟩

omit [Profile] in
/-- number of set bits in the first `64*k` bits -/
theorem cnt_lbit_mul (d : List Word) (k : Nat) (hk : k ≤ d.length) :
    cnt (lbit d) (64 * k) = ((d.take k).map popcount).sum := by
  induction k with
  | zero => simp
  | succ k ih =>
    rw [show 64 * (k + 1) = 64 * k + 64 by omega, cnt_add, ih (by omega)]
    have h1 : d[k]? = some (d[k]'(by omega)) := by simp
    rw [List.take_add_one, h1]
    simp only [Option.toList_some, List.map_append, List.sum_append, List.map_cons, List.map_nil,
      List.sum_cons, List.sum_nil, Nat.add_zero]
    congr 1
    unfold popcount
    apply cnt_congr
    intro i hi
    rw [lbit_word hi, h1]; rfl

namespace BV

omit [Profile] in
@[simp] theorem length_bits (v : BV) : v.bits.length = v.len := by simp [bits]

omit [Profile] in
theorem bits_getElem? (v : BV) (i : Nat) :
    v.bits[i]? = if i < v.len then some (lbit v.data i) else none := getElem?_map_range _ _ _

omit [Profile] in
theorem bits_eq_of {v : BV} {l : List Bool} (hl : l.length = v.len)
    (h : ∀ i, i < v.len → l[i]? = some (lbit v.data i)) : v.bits = l := by
  apply List.ext_getElem?
  intro i
  rw [bits_getElem?]
  split
  · rw [h i ‹_›]
  · rw [List.getElem?_eq_none (by omega)]

omit [Profile] in
theorem bits_ext {v w : BV} (hl : v.len = w.len)
    (h : ∀ i, i < v.len → lbit v.data i = lbit w.data i) : v.bits = w.bits := by
  apply bits_eq_of (by simp [hl])
  intro i hi
  rw [bits_getElem?, if_pos (by omega), h i hi]

end BV

/-! ## words -/

omit [Profile] in
theorem b2w_getLsbD (b : Bool) (i : Nat) : (b2w b).getLsbD i = (decide (i = 0) && b) := by
  cases b
  · simp [b2w]
  · simp [b2w]

omit [Profile] in
theorem one_shl_getLsbD (k i : Nat) (hk : k < 64) :
    (1#64 <<< k).getLsbD i = decide (i = k) := by
  simp only [BitVec.getLsbD_shiftLeft, BitVec.getLsbD_one]
  by_cases h : i = k
  · subst h; simp [hk]
  · by_cases h1 : i < k
    · simp [h1, h]
    · simp [h, show i - k ≠ 0 by omega]

omit [Profile] in
/-- `(1 << k) - 1` selects the low `k` bits (`k < 64`) -/
theorem mask_getLsbD (k i : Nat) (hk : k < 64) :
    ((1#64 <<< k) - 1#64).getLsbD i = decide (i < k) := by
  have h : ((1#64 <<< k) - 1#64).toNat = 2 ^ k - 1 := by
    have h2 : (2:Nat) ^ k < 2 ^ 64 := Nat.pow_lt_pow_right (by omega) hk
    have h3 : 0 < (2:Nat) ^ k := Nat.pos_of_ne_zero (by simp)
    rw [BitVec.toNat_sub_of_le]
    · simp [BitVec.toNat_shiftLeft, Nat.shiftLeft_eq, Nat.mod_eq_of_lt h2]
    · rw [BitVec.le_def]
      simp [BitVec.toNat_shiftLeft, Nat.shiftLeft_eq, Nat.mod_eq_of_lt h2]
      omega
  rw [← BitVec.testBit_toNat, h, Nat.testBit_two_pow_sub_one]

omit [Profile] in
theorem lowMask_getLsbD (k i : Nat) (hk : k ≤ 64) :
    (BV.lowMask k).getLsbD i = decide (i < k) := by
  unfold BV.lowMask
  rw [Nat.mod_eq_of_lt (by omega : k < 2 ^ 32)]
  by_cases h : k < 64
  · rw [if_pos h, mask_getLsbD k i h]
  · rw [if_neg h, show k = 64 by omega]
    have : (0#64 - 1#64) = BitVec.allOnes 64 := by decide
    rw [this, BitVec.getLsbD_allOnes]

omit [Profile] in
theorem getLsbD_and_one (w : Word) (i : Nat) :
    (w &&& 1#64).getLsbD i = (decide (i = 0) && w.getLsbD 0) := by
  rw [BitVec.getLsbD_and, BitVec.getLsbD_one]
  by_cases h : i = 0
  · subst h; simp
  · simp [h]

omit [Profile] in
theorem shr_and_one (w : Word) (k : Nat) : (w >>> k) &&& 1#64 = b2w (w.getLsbD k) := by
  apply BitVec.eq_of_getLsbD_eq
  intro i hi
  rw [getLsbD_and_one, b2w_getLsbD]
  simp

omit [Profile] in
theorem b2w_inj {a b : Bool} : b2w a = b2w b ↔ a = b := by cases a <;> cases b <;> decide

omit [Profile] in
@[simp] theorem b2w_ne_zero (b : Bool) : (b2w b != 0#64) = b := by cases b <;> decide

end Vers
