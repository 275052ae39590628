import Verif.Proofs.BitVecOps3
import Verif.Model.Mask

/-! # Correctness of the bit vector operations, part 4: masks, equality, hashing -/

set_option linter.unusedSimpArgs false

namespace Vers

variable [Profile]
open Spec

omit [Profile] in
theorem bitwise_or : Bitwise (· ||| ·) (· || ·) := fun a b i _ => by simp
omit [Profile] in
theorem bitwise_and : Bitwise (· &&& ·) (· && ·) := fun a b i _ => by simp
omit [Profile] in
theorem bitwise_xor : Bitwise (· ^^^ ·) (· ^^ ·) := fun a b i _ => by simp

namespace Masked

omit [Profile] in
/-- the vector whose limbs are the masked limbs -/
theorem limbs_length {m : Masked} (hv : m.vec.WF) (hm : m.mask.WF) (hl : m.vec.len = m.mask.len) :
    m.limbs.length = m.vec.data.length := by
  unfold BV.WF at hv hm; simp [limbs]; omega

omit [Profile] in
theorem toBitVec_wf {m : Masked} (hv : m.vec.WF) (hm : m.mask.WF) (hl : m.vec.len = m.mask.len) :
    m.toBitVec.WF := by
  have := limbs_length hv hm hl
  unfold BV.WF at *; simp [toBitVec, this]; exact hv

omit [Profile] in
theorem limb_eq {m : Masked} {i : Nat} (h1 : i < m.vec.data.length) (h2 : i < m.mask.data.length) :
    m.limb i = .ok (m.binOp m.vec.data[i] m.mask.data[i]) ∧
      m.limbs[i]? = some (m.binOp m.vec.data[i] m.mask.data[i]) := by
  constructor
  · simp [limb, idx_of_lt h1, idx_of_lt h2, ok_bind, pure_eq_ok]
  · simp only [limbs, List.getElem?_map, List.zip, List.getElem?_zipWith,
      List.getElem?_eq_getElem h1, List.getElem?_eq_getElem h2, Option.map_some]

omit [Profile] in
theorem limb_idx {m : Masked} (hv : m.vec.WF) (hm : m.mask.WF) (hl : m.vec.len = m.mask.len)
    {i : Nat} (h1 : i < m.vec.data.length) : m.limb i = idx m.limbs i := by
  have h2 : i < m.mask.data.length := by unfold BV.WF at hv hm; omega
  obtain ⟨h3, h4⟩ := limb_eq h1 h2
  rw [h3, idx_of_some h4]

omit [Profile] in
/-- bits of the masked vector -/
theorem toBitVec_bits {m : Masked} {g : Bool → Bool → Bool} (hf : Bitwise m.binOp g)
    (hv : m.vec.WF) (hm : m.mask.WF) (hl : m.vec.len = m.mask.len) :
    m.toBitVec.bits = List.zipWith g m.vec.bits m.mask.bits := by
  apply BV.bits_eq_of
  · simp [toBitVec]; omega
  · intro i hi
    have hi' : i < m.vec.len := hi
    have h1 : i / 64 < m.vec.data.length := by unfold BV.WF at hv; omega
    have h2 : i / 64 < m.mask.data.length := by unfold BV.WF at hm; omega
    rw [List.getElem?_zipWith, BV.bits_getElem?, BV.bits_getElem?, if_pos hi', if_pos (by omega)]
    simp only
    have h3 : m.toBitVec.data[i / 64]? = _ := (limb_eq h1 h2).2
    rw [lbit_eq_of_some h3, hf _ _ _ (by omega), lbit_eq_of_some (List.getElem?_eq_getElem h1),
      lbit_eq_of_some (List.getElem?_eq_getElem h2)]

omit [Profile] in
theorem getUnchecked_eq {m : Masked} (hv : m.vec.WF) (hm : m.mask.WF) (hl : m.vec.len = m.mask.len)
    {i : Nat} (hi : i < m.vec.len) : m.getUnchecked i = m.toBitVec.getUnchecked i := by
  unfold getUnchecked BV.getUnchecked
  rw [limb_idx hv hm hl (by unfold BV.WF at hv; omega)]
  rfl

omit [Profile] in
theorem get_eq {m : Masked} (hv : m.vec.WF) (hm : m.mask.WF) (hl : m.vec.len = m.mask.len)
    (i : Nat) : m.get i = m.toBitVec.get i := by
  unfold get BV.get
  have : m.toBitVec.len = m.vec.len := rfl
  rw [this]
  split
  · rfl
  · rw [getUnchecked_eq hv hm hl (by omega)]

omit [Profile] in
theorem isBitSet_eq {m : Masked} (hv : m.vec.WF) (hm : m.mask.WF) (hl : m.vec.len = m.mask.len)
    (i : Nat) : m.isBitSet i = m.toBitVec.isBitSet i := by
  unfold isBitSet BV.isBitSet BV.isBitSetUnchecked
  have : m.toBitVec.len = m.vec.len := rfl
  rw [this]
  split
  · rfl
  · rw [getUnchecked_eq hv hm hl (by omega)]
    cases m.toBitVec.getUnchecked i <;> rfl

theorem getBits_eq {m : Masked} (hv : m.vec.WF) (hm : m.mask.WF) (hl : m.vec.len = m.mask.len)
    (pos n : Nat) (hn : n < 64 ∨ pos % 64 = 0) (hp : pos + n < 2 ^ 64 ∨ Profile.debug = true) :
    m.getBits pos n = m.toBitVec.getBits pos n := by
  unfold getBits BV.getBits
  have : m.toBitVec.len = m.vec.len := rfl
  rw [this]
  split
  · rfl
  · rename_i hn2
    rcases Nat.lt_or_ge (pos + n) (2 ^ 64) with hov | hov
    rotate_left
    · rw [addU_overflow (hp.resolve_left (by omega)) hov]; rfl
    rw [addU_of_lt hov, ok_bind, ok_bind]
    split
    · rfl
    · rename_i hp
      have e : m.getBitsUnchecked pos n = m.toBitVec.getBitsUnchecked pos n := by
        unfold getBitsUnchecked BV.getBitsUnchecked BV.getBitsRaw
        rw [dassertR_true (by omega), ok_bind, ok_bind]
        rw [limb_idx hv hm hl (by unfold BV.WF at hv; omega)]
        have hlt : pos / 64 < m.limbs.length := by
          rw [limbs_length hv hm hl]; unfold BV.WF at hv; omega
        show (idx m.limbs _ >>= _) = (idx m.limbs _ >>= _)
        rw [idx_of_lt hlt, ok_bind, ok_bind]
        simp only [addU_of_lt (show pos % 64 + n < 2 ^ 64 by omega), ok_bind]
        by_cases h1 : pos % 64 + n = 64
        · rw [if_pos h1, if_pos (by omega), pure_eq_ok, pure_eq_ok]
          congr 1
          apply BitVec.eq_of_getLsbD_eq
          intro j hj
          rw [BitVec.getLsbD_and, lowMask_getLsbD _ _ (by omega), BitVec.getLsbD_ushiftRight]
          by_cases hj2 : j < n
          · simp [hj2]
          · rw [BitVec.getLsbD_of_ge _ _ (by omega)]; rfl
        · rw [if_neg h1]
          have hm' : (1#64 <<< (n % 64)) - 1#64 = BV.lowMask n := by
            unfold BV.lowMask
            rw [if_pos (by omega), Nat.mod_eq_of_lt (by omega : n < 64), Nat.mod_eq_of_lt (by omega : n < 2 ^ 32)]
          rw [hm']
          by_cases h2 : pos % 64 + n < 64
          · rw [if_pos h2, if_pos (by omega)]
          · rw [if_neg h2, if_neg (by omega), limb_idx hv hm hl (by unfold BV.WF at hv; omega)]
            rfl
      rw [e]

omit [Profile] in
theorem countOnes_eq {m : Masked} (hv : m.vec.WF) (hm : m.mask.WF) (hl : m.vec.len = m.mask.len) :
    m.countOnes = m.toBitVec.countOnes := by
  have hll := limbs_length hv hm hl
  unfold countOnes BV.countOnes
  have h1 : m.toBitVec.len = m.vec.len := rfl
  have h2 : m.toBitVec.data = m.limbs := rfl
  rw [h1, h2]
  have hv' := hv
  have hm' := hm
  unfold BV.WF at hv' hm'
  rw [prefixR_of_le (by omega), ok_bind]
  simp only
  split
  · have e1 : m.vec.data.length - 1 < m.vec.data.length := by omega
    have e2 : m.vec.data.length - 1 < m.mask.data.length := by omega
    have e3 : m.mask.data.length = m.vec.data.length := by omega
    rw [List.getLast?_eq_getElem?, List.getLast?_eq_getElem?, List.getLast?_eq_getElem?, hll, e3,
      (limb_eq e1 e2).2, List.getElem?_eq_getElem e1, List.getElem?_eq_getElem e2]
    rfl
  · rfl

end Masked

/-! ## apply_mask -/
namespace BV

omit [Profile] in
theorem maskLoop_eq (f : Word → Word → Word) (mask : List Word) :
    ∀ (n i : Nat) (data : List Word), i + n = data.length → data.length ≤ mask.length →
      ∃ d', maskLoop f mask i n data = .ok d' ∧ d'.length = data.length ∧
        ∀ j, d'[j]? = if i ≤ j ∧ j < data.length then
          some (f (data[j]?.getD 0#64) (mask[j]?.getD 0#64)) else data[j]? := by
  intro n
  induction n with
  | zero =>
    intro i data h h2
    refine ⟨data, rfl, rfl, ?_⟩
    intro j
    rw [if_neg (by omega)]
  | succ n ih =>
    intro i data h h2
    unfold maskLoop
    have hi : i < data.length := by omega
    rw [idx_of_lt hi, ok_bind, idx_of_lt (by omega), ok_bind, setIdx_of_lt hi, ok_bind]
    obtain ⟨d', h3, h4, h5⟩ := ih (i + 1) (data.set i (f data[i] (mask[i]'(by omega))))
      (by simp; omega) (by simpa using h2)
    refine ⟨d', h3, by simpa using h4, ?_⟩
    intro j
    rw [h5 j]
    simp only [List.length_set]
    by_cases hj : j = i
    · subst hj
      rw [if_neg (by omega), if_pos (by omega), List.getElem?_set_self hi,
        List.getElem?_eq_getElem hi, List.getElem?_eq_getElem (show j < mask.length by omega)]
      rfl
    · rw [List.getElem?_set_ne (by omega)]
      by_cases hj2 : i ≤ j ∧ j < data.length
      · rw [if_pos (by omega), if_pos hj2]
      · rw [if_neg (by omega), if_neg hj2]

omit [Profile] in
/-- applying a mask eagerly gives the same vector as collecting the lazy mask -/
theorem applyMask_eq (f : Word → Word → Word) {v mask : BV} (hv : v.WF) (hm : mask.WF) :
    applyMask f v mask = .ok ((Masked.new v mask f).map Masked.toBitVec) := by
  unfold applyMask Masked.new
  by_cases hl : v.len = mask.len
  · have hl2 : v.data.length = mask.data.length := by unfold WF at hv hm; omega
    obtain ⟨d', h1, h2, h3⟩ := maskLoop_eq f mask.data v.data.length 0 v.data (by omega) (by omega)
    rw [if_neg (by simpa using hl), if_neg (by simpa using hl), h1, ok_bind, pure_eq_ok]
    simp only [Option.map_some, Masked.toBitVec]
    congr 3
    apply List.ext_getElem?
    intro j
    rw [h3 j]
    by_cases hj : j < v.data.length
    · rw [if_pos (by omega), (Masked.limb_eq (m := ⟨v, mask, f⟩) hj (by simp; omega)).2]
      simp only [List.getElem?_eq_getElem hj,
        List.getElem?_eq_getElem (show j < mask.data.length by omega), Option.getD_some]
    · rw [if_neg (by omega), List.getElem?_eq_none (by omega)]
      rw [List.getElem?_eq_none]
      rw [Masked.limbs_length hv hm hl]
      show v.data.length ≤ j
      omega
  · rw [if_pos (by simpa using hl), if_pos (by simpa using hl)]
    rfl

/-! ## equality and hash -/

omit [Profile] in
theorem eqLoop_eq (a b : List Word) :
    ∀ (n i : Nat), i + n ≤ a.length → i + n ≤ b.length →
      eqLoop a b i n = .ok (decide ((a.drop i).take n = (b.drop i).take n)) := by
  intro n
  induction n with
  | zero => intro i _ _; simp [eqLoop, pure_eq_ok]
  | succ n ih =>
    intro i h1 h2
    unfold eqLoop
    rw [idx_of_lt (by omega), ok_bind, idx_of_lt (by omega), ok_bind,
      List.drop_eq_getElem_cons (show i < a.length by omega),
      List.drop_eq_getElem_cons (show i < b.length by omega), List.take_succ_cons,
      List.take_succ_cons]
    by_cases h : a[i]'(by omega) = b[i]'(by omega)
    · rw [if_neg (by simpa using h), ih (i + 1) (by omega) (by omega)]
      simp [h]
    · rw [if_pos h]
      simp [h, pure_eq_ok]

/-- what `==` compares: the full limbs except the last, and the masked last limb -/
def eqKey (v : BV) : Nat × List Word :=
  if v.len = 0 then (0, [])
  else (v.len, v.data.dropLast ++
    [(v.data[(v.len - 1) / 64]?.getD 0#64) &&& ((1#64 <<< (v.len % 64)) - 1#64)])

theorem hashInput_eq {v : BV} (h : v.WF) : v.hashInput = .ok v.eqKey := by
  unfold WF at h
  unfold hashInput eqKey
  by_cases h0 : v.len = 0
  · rw [if_neg (by omega), if_pos h0, h0]; rfl
  · rw [if_pos (by omega), if_neg h0, subR_of_le (by omega), ok_bind, prefixR_of_le (by omega),
      ok_bind, List.getLast?_eq_getElem?, List.getElem?_eq_getElem (by omega), unwrapR_some, ok_bind,
      List.dropLast_eq_take]
    have : v.data.length - 1 = (v.len - 1) / 64 := by omega
    simp only [← this, List.getElem?_eq_getElem (show v.data.length - 1 < v.data.length by omega),
      Option.getD_some]
    rfl

theorem eq_eqKey {v w : BV} (hv : v.WF) (hw : w.WF) :
    v.eq w = .ok (decide (v.eqKey = w.eqKey)) := by
  unfold WF at hv hw
  unfold eq eqKey
  by_cases hl : v.len = w.len
  · rw [if_neg (by simpa using hl)]
    by_cases h0 : v.len = 0
    · rw [if_pos h0, if_pos h0, if_pos (by omega)]; simp [pure_eq_ok]
    · rw [if_neg h0, subR_of_le (by omega), ok_bind, eqLoop_eq _ _ _ _ (by omega) (by omega), ok_bind,
        if_neg h0, if_neg (show ¬ w.len = 0 by omega)]
      simp only [List.drop_zero]
      have e1 : v.data.length - 1 = (v.len - 1) / 64 := by omega
      have e2 : v.data.length - 1 = (w.len - 1) / 64 := by omega
      have e3 : v.data.length = w.data.length := by omega
      by_cases hd : v.data.take (v.data.length - 1) = w.data.take (v.data.length - 1)
      · rw [if_neg (by simp [hd])]
        rw [idx_of_lt (by omega), ok_bind, idx_of_lt (by omega), ok_bind]
        simp only [← e1, ← e2, List.dropLast_eq_take, ← e3, hd, ← hl,
          List.getElem?_eq_getElem (show v.data.length - 1 < v.data.length by omega),
          List.getElem?_eq_getElem (show v.data.length - 1 < w.data.length by omega),
          Option.getD_some]
        split
        · rename_i hx
          simp [hx, pure_eq_ok]
        · rename_i hx
          simp at hx
          simp [hx, pure_eq_ok]
      · rw [if_pos (by simp [hd])]
        simp only [pure_eq_ok]
        congr 1
        symm
        rw [decide_eq_false_iff_not]
        intro hk
        have hk := congrArg Prod.snd hk
        simp only at hk
        have := (List.append_inj hk (by simp; omega)).1
        rw [List.dropLast_eq_take, List.dropLast_eq_take, ← e3] at this
        exact hd this
  · rw [if_pos (by simpa using hl)]
    simp only [pure_eq_ok]
    congr 1
    symm
    rw [decide_eq_false_iff_not]
    intro hk
    have := congrArg Prod.fst hk
    split at this <;> split at this <;> simp at this <;> omega

omit [Profile] in
/-- limbs below the last, as bits -/
theorem limb_eq_iff {a b : List Word} {k : Nat} (ha : k ≤ a.length) (hb : k ≤ b.length) :
    a.take k = b.take k ↔ ∀ i, i < 64 * k → lbit a i = lbit b i := by
  constructor
  · intro h i hi
    rw [← lbit_take hi (d := a), ← lbit_take hi (d := b), h]
  · intro h
    apply List.ext_getElem?
    intro j
    by_cases hj : j < k
    · rw [List.getElem?_take, List.getElem?_take, if_pos hj, if_pos hj,
        List.getElem?_eq_getElem (by omega), List.getElem?_eq_getElem (by omega)]
      congr 1
      apply BitVec.eq_of_getLsbD_eq
      intro i hi
      have := h (64 * j + i) (by omega)
      rw [lbit_word hi, lbit_word hi, List.getElem?_eq_getElem (by omega),
        List.getElem?_eq_getElem (by omega)] at this
      exact this
    · rw [List.getElem?_eq_none (by simp; omega), List.getElem?_eq_none (by simp; omega)]

omit [Profile] in
/-- `==` compares exactly the bits up to the last limb border, plus the partial last limb -/
theorem eqKey_iff {v w : BV} (hv : v.WF) (hw : w.WF) :
    v.eqKey = w.eqKey ↔ v.len = w.len ∧
      ∀ i, i < (if v.len % 64 = 0 then v.len - 64 else v.len) → lbit v.data i = lbit w.data i := by
  unfold WF at hv hw
  by_cases hl : v.len = w.len
  · unfold eqKey
    by_cases h0 : v.len = 0
    · rw [if_pos h0, if_pos (by omega)]
      simp [← hl, h0]
    · rw [if_neg h0, if_neg (by omega)]
      simp only [← hl, true_and]
      have e1 : v.data.length - 1 = (v.len - 1) / 64 := by omega
      have e3 : v.data.length = w.data.length := by omega
      have hkey := limb_eq_iff (a := v.data) (b := w.data) (k := v.data.length - 1) (by omega) (by omega)
      rw [List.dropLast_eq_take, List.dropLast_eq_take, ← e3, ← e1]
      constructor
      · intro h i hi
        have h := (Prod.mk.inj h).2
        obtain ⟨h1, h2⟩ := List.append_inj h (by simp; omega)
        rw [hkey] at h1
        by_cases hi2 : i < 64 * (v.data.length - 1)
        · exact h1 i hi2
        · have hmod : v.len % 64 ≠ 0 := by
            intro hm; rw [if_pos hm] at hi; omega
          rw [if_neg hmod] at hi
          have h2 := List.singleton_inj.1 h2
          have h3 := congrArg (fun x => BitVec.getLsbD x (i % 64)) h2
          simp only [BitVec.getLsbD_and, mask_getLsbD _ _ (Nat.mod_lt v.len (by omega : 0 < 64))] at h3
          rw [decide_eq_true (by omega), Bool.and_true, Bool.and_true] at h3
          have hii : i / 64 = v.data.length - 1 := by omega
          unfold lbit
          rw [hii]; exact h3
      · intro h
        congr 1
        congr 1
        · rw [hkey]
          intro i hi
          apply h
          split <;> omega
        · congr 1
          apply BitVec.eq_of_getLsbD_eq
          intro j hj
          simp only [BitVec.getLsbD_and, mask_getLsbD _ _ (Nat.mod_lt v.len (by omega : 0 < 64))]
          by_cases hj2 : j < v.len % 64
          · have := h (64 * (v.data.length - 1) + j) (by rw [if_neg (by omega)]; omega)
            rw [lbit_word hj, lbit_word hj] at this
            rw [this]
          · simp [hj2]
  · constructor
    · intro h
      exfalso
      have := congrArg Prod.fst h
      unfold eqKey at this
      split at this <;> split at this <;> simp at this <;> omega
    · intro h; exact absurd h.1 hl

omit [Profile] in
theorem bits_eq_iff {v w : BV} :
    v.bits = w.bits ↔ v.len = w.len ∧ ∀ i, i < v.len → lbit v.data i = lbit w.data i := by
  constructor
  · intro h
    have hl : v.len = w.len := by simpa using congrArg List.length h
    refine ⟨hl, fun i hi => ?_⟩
    have := congrArg (fun l => l[i]?) h
    simp only [bits_getElem?, if_pos hi, if_pos (hl ▸ hi)] at this
    exact Option.some.inj this
  · intro h; exact bits_ext h.1 h.2

end BV
end Vers
