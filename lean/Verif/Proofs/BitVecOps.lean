import Verif.Proofs.Bits

/-! # Correctness of the bit vector operations -/

set_option linter.unusedSimpArgs false

namespace Vers

variable [Profile]

/-! ## specification helpers -/

open Spec

omit [Profile] in
@[simp] theorem length_natToBits (n x : Nat) : (natToBits n x).length = n := by
  induction n generalizing x with
  | zero => rfl
  | succ n ih => simp [natToBits, ih]

omit [Profile] in
theorem natToBits_getElem? (n x i : Nat) :
    (natToBits n x)[i]? = if i < n then some (x.testBit i) else none := by
  induction n generalizing x i with
  | zero => simp [natToBits]
  | succ n ih =>
    cases i with
    | zero => simp [natToBits, Nat.testBit_zero]
    | succ i =>
      simp only [natToBits, List.getElem?_cons_succ, ih, Nat.testBit_succ]
      simp

omit [Profile] in
theorem testBit_bitsToNat (l : List Bool) (i : Nat) :
    (bitsToNat l).testBit i = (l[i]?).getD false := by
  induction l generalizing i with
  | nil => simp [bitsToNat]
  | cons b l ih =>
    cases i with
    | zero =>
      simp only [bitsToNat, Nat.testBit_zero, List.getElem?_cons_zero, Option.getD_some]
      cases b <;> simp <;> omega
    | succ i =>
      simp only [bitsToNat, Nat.testBit_succ, List.getElem?_cons_succ]
      rw [show (b.toNat + 2 * bitsToNat l) / 2 = bitsToNat l by cases b <;> simp <;> omega, ih]

omit [Profile] in
theorem bitsToNat_lt (l : List Bool) : bitsToNat l < 2 ^ l.length := by
  induction l with
  | nil => simp [bitsToNat]
  | cons b l ih =>
    simp only [bitsToNat, List.length_cons, Nat.pow_succ]
    cases b <;> simp <;> omega

omit [Profile] in
theorem bitsToNat_natToBits (n x : Nat) : bitsToNat (natToBits n x) = x % 2 ^ n := by
  induction n generalizing x with
  | zero => simp [natToBits, bitsToNat, Nat.mod_one]
  | succ n ih =>
    simp only [natToBits, bitsToNat, ih]
    rw [Nat.pow_succ, Nat.mul_comm (2 ^ n) 2, Nat.mod_mul]
    rcases Nat.mod_two_eq_zero_or_one x with h | h <;> simp [h]

omit [Profile] in
theorem natToBits_bitsToNat (l : List Bool) : natToBits l.length (bitsToNat l) = l := by
  apply List.ext_getElem?
  intro i
  rw [natToBits_getElem?, testBit_bitsToNat]
  split
  · rename_i h; simp [h]
  · rename_i h; rw [List.getElem?_eq_none (by omega)]

omit [Profile] in
theorem bitsToNat_inj {l l' : List Bool} (hl : l.length = l'.length)
    (h : bitsToNat l = bitsToNat l') : l = l' := by
  rw [← natToBits_bitsToNat l, ← natToBits_bitsToNat l', hl, h]

omit [Profile] in
/-- a word is determined by the list of its low bits -/
theorem word_toNat_eq_bitsToNat {w : Word} {l : List Bool} (hl : l.length ≤ 64)
    (h : ∀ i, i < 64 → w.getLsbD i = (l[i]?).getD false) : w.toNat = bitsToNat l := by
  apply Nat.eq_of_testBit_eq
  intro i
  rw [testBit_bitsToNat, BitVec.testBit_toNat]
  by_cases hi : i < 64
  · exact h i hi
  · rw [BitVec.getLsbD_of_ge w i (by omega), List.getElem?_eq_none (by omega)]; rfl

omit [Profile] in
theorem bits_append_eq {v v' : BV} {l : List Bool} (hlen : v'.len = v.len + l.length)
    (h1 : ∀ i, i < v.len → lbit v'.data i = lbit v.data i)
    (h2 : ∀ j, j < l.length → l[j]? = some (lbit v'.data (v.len + j))) :
    v'.bits = v.bits ++ l := by
  apply BV.bits_eq_of (by simp [hlen])
  intro i hi
  by_cases h : i < v.len
  · rw [List.getElem?_append_left (by simpa using h), BV.bits_getElem?, if_pos h, h1 i h]
  · rw [List.getElem?_append_right (by simpa using h)]
    have := h2 (i - v.len) (by omega)
    simp only [BV.length_bits]
    rw [this]; congr 2; omega

namespace BV

omit [Profile] in
theorem wf_new : new.WF := by decide
omit [Profile] in
@[simp] theorem bits_new : new.bits = [] := rfl

omit [Profile] in
theorem wf_fromZeros (n : Nat) : (fromZeros n).WF := by
  unfold WF fromZeros
  split <;> simp <;> omega

omit [Profile] in
theorem lbit_zeros {d : List Word} (h : ∀ w ∈ d, w = 0#64) (i : Nat) : lbit d i = false := by
  unfold lbit
  cases h' : d[i / 64]? with
  | none => simp
  | some w => have := h w (List.mem_of_getElem? h'); simp [this]

omit [Profile] in
theorem bits_fromZeros (n : Nat) : (fromZeros n).bits = List.replicate n false := by
  apply bits_eq_of (by simp [fromZeros])
  intro i hi
  have hi' : i < n := hi
  rw [lbit_zeros, List.getElem?_replicate, if_pos hi']
  intro w hw
  unfold fromZeros at hw
  simp at hw
  split at hw
  · exact (List.mem_replicate.1 hw).2
  · simp at hw
    rcases hw with hw | hw
    · exact hw.2
    · exact hw

omit [Profile] in
theorem wf_fromOnes (n : Nat) : (fromOnes n).WF := by
  unfold WF fromOnes
  split <;> simp <;> omega

omit [Profile] in
theorem bits_fromOnes (n : Nat) : (fromOnes n).bits = List.replicate n true := by
  apply bits_eq_of (by simp [fromOnes])
  intro i hi
  have hi' : i < n := hi
  rw [List.getElem?_replicate, if_pos hi']
  congr 1
  symm
  have key : ∀ i, i < 64 * (n / 64) → lbit (List.replicate (n / 64) (BitVec.allOnes 64)) i = true := by
    intro i hi
    unfold lbit
    rw [List.getElem?_replicate, if_pos (by omega)]
    rw [Option.getD_some, BitVec.getLsbD_allOnes]
    simp; omega
  unfold fromOnes
  by_cases h : n % 64 = 0
  · simp only [h, ne_eq, not_true_eq_false, if_false]
    exact key i (by omega)
  · simp only [h, ne_eq, not_false_eq_true, if_true]
    rw [lbit_push]
    split
    · rename_i h'
      simp at h'
      rw [mask_getLsbD _ _ (by omega)]
      simp; omega
    · rename_i h'
      simp at h'
      exact key i (by omega)

omit [Profile] in
theorem wf_fromLimbs (d : List Word) : (fromLimbs d).WF := by
  unfold WF fromLimbs; simp only; omega

omit [Profile] in
theorem bits_fromLimbs (d : List Word) : (fromLimbs d).bits = d.flatMap wordBits := by
  have hlen : ∀ d : List Word, (d.flatMap wordBits).length = d.length * 64 := by
    intro d
    induction d with
    | nil => rfl
    | cons w d ih => simp [List.flatMap_cons, wordBits] at ih ⊢; omega
  apply bits_eq_of
  · rw [hlen]; rfl
  · intro i hi
    have hi' : i < d.length * 64 := hi
    show _ = some (lbit d i)
    clear hi
    induction d generalizing i with
    | nil => simp at hi'
    | cons w d ih =>
      rw [List.flatMap_cons]
      by_cases h : i < 64
      · rw [List.getElem?_append_left (by simpa [wordBits] using h)]
        rw [wordBits, natToBits_getElem?, if_pos h]
        unfold lbit
        rw [show i / 64 = 0 by omega, show i % 64 = i by omega]
        simp [BitVec.testBit_toNat]
      · rw [List.getElem?_append_right (by simpa [wordBits] using h)]
        rw [ih (i - (wordBits w).length) (by simp [wordBits] at *; omega)]
        unfold lbit
        have : (wordBits w).length = 64 := by simp [wordBits]
        rw [this, show i / 64 = (i - 64) / 64 + 1 by omega, show (i - 64) % 64 = i % 64 by omega]
        simp

/-! ## append -/

omit [Profile] in
theorem append_refines {v : BV} (h : v.WF) (b : Bool) : Refines (v.append b) (v.bits ++ [b]) := by
  unfold WF at h
  unfold append
  by_cases ha : v.len % 64 = 0
  · simp only [ha, if_true]
    have hk : v.len / 64 = v.data.length := by omega
    rw [idx_of_lt (by simp; omega)]
    simp only [ok_bind]
    rw [setIdx_of_lt (by simp; omega)]
    refine ⟨_, rfl, ?_, ?_⟩
    · simp [WF]; omega
    · apply bits_append_eq (by simp)
      · intro i hi
        simp only
        rw [lbit_set (by simp; omega), if_neg (by omega), lbit_push, if_neg (by omega)]
      · intro j hj
        have hj : j = 0 := by simpa using hj
        subst hj
        simp only [Nat.add_zero]
        rw [lbit_set (by simp; omega), if_pos rfl]
        have hw : (v.data ++ [0#64])[v.len / 64]'(by simp; omega) = 0#64 := by simp [hk]
        rw [hw, ha]
        cases b <;> simp
  · simp only [ha, if_false]
    have hk : v.len / 64 + 1 = v.data.length := by omega
    rw [idx_of_lt (by omega)]
    simp only [ok_bind]
    rw [setIdx_of_lt (by omega)]
    have hw : v.data[v.len / 64]? = some (v.data[v.len / 64]'(by omega)) := by simp
    refine ⟨_, rfl, ?_, ?_⟩
    · simp [WF]; omega
    · apply bits_append_eq (by simp)
      · intro i hi
        simp only
        rw [lbit_set (by omega)]
        split
        · rename_i h'
          have hw' : v.data[i / 64]? = some (v.data[v.len / 64]'(by omega)) := by rw [h']; exact hw
          rw [lbit_eq_of_some hw']
          have hne : ¬ (i % 64 = v.len % 64) := by omega
          cases b
          · simp only [Bool.false_eq_true, if_false, BitVec.getLsbD_and, BitVec.getLsbD_not]
            rw [one_shl_getLsbD _ _ (by omega)]
            simp [hne]; omega
          · simp only [if_true, BitVec.getLsbD_or]
            rw [one_shl_getLsbD _ _ (by omega)]
            simp [hne]
        · rfl
      · intro j hj
        have hj : j = 0 := by simpa using hj
        subst hj
        simp only [Nat.add_zero]
        rw [lbit_set (by omega), if_pos rfl]
        cases b
        · simp only [Bool.false_eq_true, if_false, BitVec.getLsbD_and, BitVec.getLsbD_not]
          rw [one_shl_getLsbD _ _ (by omega)]
          simp
        · simp only [if_true, BitVec.getLsbD_or]
          rw [one_shl_getLsbD _ _ (by omega)]
          simp

omit [Profile] in
theorem appendBit_eq_append (v : BV) (w : Word) : v.appendBit w = v.append (w.getLsbD 0) := by
  have : (w % 2#64 = 1#64) ↔ w.getLsbD 0 = true := by
    rw [← BitVec.testBit_toNat, Nat.testBit_zero]
    constructor
    · intro h
      have := congrArg BitVec.toNat h
      simpa using this
    · intro h
      apply BitVec.eq_of_toNat_eq
      simpa using h
  unfold appendBit append
  simp only [this]

omit [Profile] in
theorem appendBit_refines {v : BV} (h : v.WF) (w : Word) :
    Refines (v.appendBit w) (v.bits ++ [w.getLsbD 0]) := by
  rw [appendBit_eq_append]; exact append_refines h _

omit [Profile] in
theorem appendBitList_refines {v : BV} (h : v.WF) (ws : List Word) :
    Refines (v.appendBitList ws) (v.bits ++ ws.map (fun w => w.getLsbD 0)) := by
  induction ws generalizing v with
  | nil => exact ⟨v, rfl, h, by simp⟩
  | cons w ws ih =>
    obtain ⟨v', h1, h2, h3⟩ := appendBit_refines h w
    unfold appendBitList
    rw [h1, ok_bind]
    have := ih h2
    rw [h3] at this
    simpa using this

omit [Profile] in
theorem appendBoolList_refines {v : BV} (h : v.WF) (bs : List Bool) :
    Refines (v.appendBoolList bs) (v.bits ++ bs) := by
  induction bs generalizing v with
  | nil => exact ⟨v, rfl, h, by simp⟩
  | cons w ws ih =>
    obtain ⟨v', h1, h2, h3⟩ := append_refines h w
    unfold appendBoolList
    rw [h1, ok_bind]
    have := ih h2
    rw [h3] at this
    simpa using this

/-! ## append_bits -/

omit [Profile] in
theorem clean_new : new.Clean := fun i _ => by simp [new, lbit]

omit [Profile] in
theorem natToBits_word (n : Nat) (w : Word) (j : Nat) (hj : j < n) :
    (natToBits n w.toNat)[j]? = some (w.getLsbD j) := by
  rw [natToBits_getElem?, if_pos hj, BitVec.testBit_toNat]

omit [Profile] in
/-- shared core of append_bits / append_bits_unchecked / append_word in the unaligned case -/
theorem unaligned_core {v : BV} (h : v.WF) (ha : v.len % 64 ≠ 0) (w0 w : Word) (n : Nat)
    (hn : 1 ≤ n) (hn' : n ≤ 64)
    (hw0 : ∀ i, w0.getLsbD i = (decide (i < v.len % 64) && (lbit v.data (64 * (v.len / 64) + i)))
      ) :
    let data := v.data.set (v.len / 64) (w0 ||| (w <<< (v.len % 64)))
    let data := if v.len % 64 + n > 64 then data ++ [w >>> (64 - v.len % 64)] else data
    WF ⟨data, v.len + n⟩ ∧ (⟨data, v.len + n⟩ : BV).bits = v.bits ++ natToBits n w.toNat ∧
      ((∀ i, n ≤ i → w.getLsbD i = false) → Clean ⟨data, v.len + n⟩) := by
  unfold WF at h
  have hk : v.len / 64 + 1 = v.data.length := by omega
  have hlb : ∀ i, lbit (v.data.set (v.len / 64) (w0 ||| (w <<< (v.len % 64)))) i =
      if i / 64 = v.len / 64 then
        (if i < v.len then lbit v.data i else w.getLsbD (i - v.len))
      else lbit v.data i := by
    intro i
    rw [lbit_set (by omega)]
    split
    · rename_i h'
      rw [BitVec.getLsbD_or, BitVec.getLsbD_shiftLeft, hw0]
      by_cases hi : i < v.len
      · rw [if_pos hi]
        have : 64 * (v.len / 64) + i % 64 = i := by omega
        rw [this]
        have h1 : i % 64 < v.len % 64 := by omega
        simp [h1]
      · rw [if_neg hi]
        have h1 : ¬ (i % 64 < v.len % 64) := by omega
        have h2 : i % 64 - v.len % 64 = i - v.len := by omega
        have h3 : i % 64 < 64 := by omega
        simp [h1, h2, h3]
    · rfl
  intro data data'
  have hdl : data.length = v.data.length := by simp [data]
  by_cases hp : v.len % 64 + n > 64
  · have hd' : data' = data ++ [w >>> (64 - v.len % 64)] := by simp [data', hp]
    have hlb' : ∀ i, lbit data' i =
        if i / 64 = v.len / 64 ∨ i / 64 = v.len / 64 + 1 then
          (if i < v.len then lbit v.data i else w.getLsbD (i - v.len))
        else lbit v.data i := by
      intro i
      rw [hd', lbit_push, hlb, hdl]
      by_cases h1 : i / 64 = v.data.length
      · rw [if_pos h1, if_pos (by omega), if_neg (by omega), BitVec.getLsbD_ushiftRight]
        congr 1; omega
      · rw [if_neg h1]
        by_cases h2 : i / 64 = v.len / 64
        · simp [h2]
        · rw [if_neg h2, if_neg (by omega)]
    refine ⟨?_, ?_, ?_⟩
    · rw [WF]; simp only [hd', List.length_append, hdl, List.length_singleton]; omega
    · apply bits_append_eq (by simp)
      · intro i hi
        simp only [hlb']; split
        · simp [hi]
        · rfl
      · intro j hj
        simp at hj
        rw [natToBits_word _ _ _ hj]
        simp only [hlb']
        rw [if_pos (by omega), if_neg (by omega)]
        congr 2; omega
    · intro hz i hi
      simp only at hi
      simp only [hlb']
      split
      · rw [if_neg (by omega)]; exact hz _ (by omega)
      · exact lbit_ge (by omega)
  · have hd' : data' = data := by simp [data', hp]
    refine ⟨?_, ?_, ?_⟩
    · rw [WF]; simp only [hd', hdl]; omega
    · apply bits_append_eq (by simp)
      · intro i hi
        simp only [hd', data, hlb]; split
        · simp [hi]
        · rfl
      · intro j hj
        simp at hj
        rw [natToBits_word _ _ _ hj]
        simp only [hd', data, hlb]
        rw [if_pos (by omega), if_neg (by omega)]
        congr 2; omega
    · intro hz i hi
      simp only at hi
      simp only [hd', data, hlb]
      split
      · rw [if_neg (by omega)]; exact hz _ (by omega)
      · exact lbit_ge (by omega)

omit [Profile] in
theorem aligned_core {v : BV} (h : v.WF) (ha : v.len % 64 = 0) (w : Word) (n : Nat)
    (hn : 1 ≤ n) (hn' : n ≤ 64) :
    WF ⟨v.data ++ [w], v.len + n⟩ ∧
      (⟨v.data ++ [w], v.len + n⟩ : BV).bits = v.bits ++ natToBits n w.toNat ∧
      ((∀ i, n ≤ i → w.getLsbD i = false) → Clean ⟨v.data ++ [w], v.len + n⟩) := by
  unfold WF at h
  refine ⟨?_, ?_, ?_⟩
  · rw [WF]; simp; omega
  · apply bits_append_eq (by simp)
    · intro i hi
      simp only
      rw [lbit_push, if_neg (by omega)]
    · intro j hj
      simp at hj
      rw [natToBits_word _ _ _ hj]
      simp only
      rw [lbit_push, if_pos (by omega)]
      congr 2; omega
  · intro hz i hi
    simp only at hi
    simp only
    rw [lbit_push]
    split
    · exact hz _ (by omega)
    · exact lbit_ge (by omega)

omit [Profile] in
theorem clearHigh_getLsbD {v : BV} (h : v.WF) (ha : v.len % 64 ≠ 0) (i : Nat) :
    ((v.data[v.len / 64]'(by unfold WF at h; omega)) &&&
      ~~~(BitVec.allOnes 64 <<< (v.len % 64))).getLsbD i =
      (decide (i < v.len % 64) && (lbit v.data (64 * (v.len / 64) + i))) := by
  unfold WF at h
  rw [BitVec.getLsbD_and, BitVec.getLsbD_not, BitVec.getLsbD_shiftLeft, BitVec.getLsbD_allOnes]
  by_cases hi : i < v.len % 64
  · have : i < 64 := by omega
    rw [lbit_word this]
    simp [hi, this]
    rw [List.getElem?_eq_getElem (by omega)]; rfl
  · by_cases h2 : i < 64
    · simp [hi, h2]; intro _; omega
    · simp [hi, h2]

omit [Profile] in
theorem appendBits_refines {v : BV} (h : v.WF) (w : Word) (n : Nat) (hn : 1 ≤ n) (hn' : n ≤ 64) :
    Refines (v.appendBits w n) (v.bits ++ natToBits n w.toNat) := by
  unfold appendBits
  rw [assertR_true hn', ok_bind]
  by_cases ha : v.len % 64 = 0
  · rw [if_pos ha]
    have := aligned_core h ha w n hn hn'
    exact ⟨_, rfl, this.1, this.2.1⟩
  · rw [if_neg ha]
    have hlt : v.len / 64 < v.data.length := by unfold WF at h; omega
    rw [idx_of_lt hlt, ok_bind]
    simp only
    rw [setIdx_of_lt hlt, ok_bind]
    have := unaligned_core h ha _ w n hn hn' (clearHigh_getLsbD h ha)
    exact ⟨_, rfl, this.1, this.2.1⟩

omit [Profile] in
theorem appendBits_panic (v : BV) (w : Word) (n : Nat) (hn : 64 < n) :
    v.appendBits w n = .error .assertion := by
  unfold appendBits
  rw [assertR_false (by omega)]; rfl

omit [Profile] in
theorem appendBitsUnchecked_refines {v : BV} (h : v.WF) (hc : v.Clean) (w : Word) (n : Nat)
    (hn : 1 ≤ n) (hn' : n ≤ 64) :
    ∃ v', v.appendBitsUnchecked w n = .ok v' ∧ v'.WF ∧ v'.bits = v.bits ++ natToBits n w.toNat ∧
      ((∀ i, n ≤ i → w.getLsbD i = false) → v'.Clean) := by
  unfold appendBitsUnchecked
  by_cases ha : v.len % 64 = 0
  · rw [if_pos ha]
    exact ⟨_, rfl, aligned_core h ha w n hn hn'⟩
  · rw [if_neg ha]
    have hlt : v.len / 64 < v.data.length := by unfold WF at h; omega
    rw [idx_of_lt hlt, ok_bind]
    simp only
    rw [setIdx_of_lt hlt, ok_bind]
    refine ⟨_, rfl, unaligned_core h ha _ w n hn hn' ?_⟩
    intro i
    by_cases hi : i < 64
    · rw [lbit_word hi, List.getElem?_eq_getElem hlt, Option.getD_some]
      by_cases h1 : i < v.len % 64
      · simp [h1]
      · have := hc (64 * (v.len / 64) + i) (by omega)
        rw [lbit_word hi, List.getElem?_eq_getElem hlt, Option.getD_some] at this
        simp [this]
    · rw [BitVec.getLsbD_of_ge _ _ (by omega)]
      simp; omega

omit [Profile] in
theorem appendWord_refines {v : BV} (h : v.WF) (w : Word) :
    Refines (v.appendWord w) (v.bits ++ wordBits w) := by
  unfold appendWord wordBits
  by_cases ha : v.len % 64 = 0
  · rw [if_pos ha]
    have := aligned_core h ha w 64 (by omega) (by omega)
    exact ⟨_, rfl, this.1, this.2.1⟩
  · rw [if_neg ha]
    have hlt : v.len / 64 < v.data.length := by unfold WF at h; omega
    rw [idx_of_lt hlt, ok_bind]
    simp only
    rw [setIdx_of_lt hlt, ok_bind]
    have := unaligned_core h ha _ w 64 (by omega) (by omega) (clearHigh_getLsbD h ha)
    simp only [show v.len % 64 + 64 > 64 by omega, if_true] at this
    exact ⟨_, rfl, this.1, this.2.1⟩

end BV
end Vers
