import Verif.Proofs.Bits
import Verif.Model.Pdep

set_option linter.unusedSimpArgs false

namespace Vers

variable [Profile]

omit [Profile] in
theorem sub_one_eq (x : Word) : x - 1#64 = ~~~(-x) := by
  simp [BitVec.not_neg]

omit [Profile] in
theorem clearLowest_getLsbD (m : Word) (i : Nat) (hi : i < 64) :
    (m &&& (m - 1#64)).getLsbD i = (m.getLsbD i && decide (∃ j < i, m.getLsbD j = true)) := by
  rw [sub_one_eq, BitVec.getLsbD_and, BitVec.getLsbD_not, BitVec.getLsbD_neg]
  cases m.getLsbD i <;> simp [hi]

omit [Profile] in
theorem lowest_getLsbD (m : Word) (i : Nat) (hi : i < 64) :
    (m &&& -m).getLsbD i = (m.getLsbD i && !decide (∃ j < i, m.getLsbD j = true)) := by
  rw [BitVec.getLsbD_and, BitVec.getLsbD_neg]
  cases m.getLsbD i <;> simp [hi]

omit [Profile] in
theorem and_shl_ne_zero (v : Word) (j : Nat) (hj : j < 64) :
    (v &&& (1#64 <<< j) ≠ 0#64) ↔ v.getLsbD j = true := by
  constructor
  · intro h
    cases hv : v.getLsbD j with
    | true => rfl
    | false =>
      exfalso
      apply h
      apply BitVec.eq_of_getLsbD_eq
      intro i hi
      rw [BitVec.getLsbD_and, one_shl_getLsbD _ _ hj]
      by_cases hij : i = j
      · subst hij; simp [hv]
      · simp [hij]
  · intro h h0
    have := congrArg (fun x => BitVec.getLsbD x j) h0
    simp only [BitVec.getLsbD_and, one_shl_getLsbD _ _ hj] at this
    simp [h] at this

omit [Profile] in
theorem shl_add_self (j : Nat) : (1#64 <<< j) + (1#64 <<< j) = 1#64 <<< (j + 1) := by
  apply BitVec.eq_of_toNat_eq
  simp [BitVec.toNat_add, BitVec.toNat_shiftLeft, Nat.shiftLeft_eq, Nat.pow_succ]
  omega

omit [Profile] in
theorem pdepLoop_eq (value m : Word) :
    ∀ (fuel j : Nat) (mask res : Word), fuel + j = 64 →
      (∀ i, i < 64 → mask.getLsbD i = (m.getLsbD i && decide (j ≤ cnt m.getLsbD i))) →
      (∀ i, i < 64 → res.getLsbD i =
        (m.getLsbD i && decide (cnt m.getLsbD i < j) && value.getLsbD (cnt m.getLsbD i))) →
      ∃ r, pdepLoop value fuel mask res (1#64 <<< j) = .ok r ∧
        ∀ i, i < 64 → r.getLsbD i = (m.getLsbD i && value.getLsbD (cnt m.getLsbD i)) := by
  -- once the mask is empty, all set bits have been handled
  have done : ∀ (j : Nat) (mask res : Word),
      (∀ i, i < 64 → mask.getLsbD i = (m.getLsbD i && decide (j ≤ cnt m.getLsbD i))) →
      (∀ i, i < 64 → res.getLsbD i =
        (m.getLsbD i && decide (cnt m.getLsbD i < j) && value.getLsbD (cnt m.getLsbD i))) →
      mask = 0#64 →
      ∀ i, i < 64 → res.getLsbD i = (m.getLsbD i && value.getLsbD (cnt m.getLsbD i)) := by
    intro j mask res hm hr h0 i hi
    have h1 := hm i hi
    rw [h0] at h1
    rw [hr i hi]
    cases hmi : m.getLsbD i with
    | false => simp
    | true =>
      rw [hmi] at h1
      simp at h1
      simp [h1]
  intro fuel
  induction fuel with
  | zero =>
    intro j mask res hj hm hr
    have h0 : mask = 0#64 := by
      apply BitVec.eq_of_getLsbD_eq
      intro i hi
      rw [hm i hi]
      have := cnt_le m.getLsbD i
      have : ¬ (j ≤ cnt m.getLsbD i) := by omega
      simp [this]
    unfold pdepLoop
    rw [if_pos h0]
    exact ⟨res, rfl, done j mask res hm hr h0⟩
  | succ fuel ih =>
    intro j mask res hj hm hr
    unfold pdepLoop
    by_cases h0 : mask = 0#64
    · rw [if_pos h0]
      exact ⟨res, rfl, done j mask res hm hr h0⟩
    · rw [if_neg h0, shl_add_self]
      have hex : ∀ i, i < 64 → ((∃ i' < i, mask.getLsbD i' = true) ↔ j < cnt m.getLsbD i) := by
        intro i hi
        constructor
        · rintro ⟨i', h1, h2⟩
          rw [hm i' (by omega)] at h2
          simp at h2
          have := cnt_lt_of_true h1 h2.1
          omega
        · intro h
          obtain ⟨p, hp, hp1, hp2⟩ := exists_of_lt_cnt h
          refine ⟨p, hp, ?_⟩
          rw [hm p (by omega), hp1, hp2]; simp
      apply ih (j + 1)
      · omega
      · intro i hi
        rw [clearLowest_getLsbD _ _ hi, hm i hi]
        simp only [hex i hi]
        by_cases h1 : j < cnt m.getLsbD i
        · have h2 : j ≤ cnt m.getLsbD i := by omega
          have h3 : j + 1 ≤ cnt m.getLsbD i := by omega
          simp [h1, h2, h3]
        · have h3 : ¬ (j + 1 ≤ cnt m.getLsbD i) := by omega
          simp [h1, h3]
      · intro i hi
        have hjv := and_shl_ne_zero value j (by omega)
        have key : (mask &&& -mask).getLsbD i = (m.getLsbD i && decide (cnt m.getLsbD i = j)) := by
          rw [lowest_getLsbD _ _ hi, hm i hi]
          simp only [hex i hi]
          rcases Nat.lt_trichotomy (cnt m.getLsbD i) j with h | h | h
          · have : ¬ (j ≤ cnt m.getLsbD i) := by omega
            have h' : cnt m.getLsbD i ≠ j := by omega
            simp [this, h']
          · simp [h]
          · have h' : cnt m.getLsbD i ≠ j := by omega
            simp [h, h']
        by_cases hv : value.getLsbD j = true
        · rw [if_pos (hjv.2 hv), BitVec.getLsbD_or, hr i hi, key]
          rcases Nat.lt_trichotomy (cnt m.getLsbD i) j with h | h | h
          · have h1 : cnt m.getLsbD i ≠ j := by omega
            have h2 : cnt m.getLsbD i < j + 1 := by omega
            simp [h, h1, h2]
          · simp [h, hv]
          · have h0 : ¬ cnt m.getLsbD i < j := by omega
            have h1 : cnt m.getLsbD i ≠ j := by omega
            have h2 : ¬ cnt m.getLsbD i < j + 1 := by omega
            simp [h0, h1, h2]
        · rw [if_neg (fun h => hv (hjv.1 h)), hr i hi]
          rcases Nat.lt_trichotomy (cnt m.getLsbD i) j with h | h | h
          · have h2 : cnt m.getLsbD i < j + 1 := by omega
            simp [h, h2]
          · simp [h] ; intro _; simpa using hv
          · have h0 : ¬ cnt m.getLsbD i < j := by omega
            have h2 : ¬ cnt m.getLsbD i < j + 1 := by omega
            simp [h0, h2]

omit [Profile] in
theorem pdep_eq (value m : Word) :
    ∃ r, pdep value m = .ok r ∧
      ∀ i, i < 64 → r.getLsbD i = (m.getLsbD i && value.getLsbD (cnt m.getLsbD i)) := by
  have := pdepLoop_eq value m 64 0 m 0#64 (by omega) (by simp) (by simp)
  simpa [pdep] using this

omit [Profile] in
theorem firstFrom_eq {f : Nat → Bool} {p : Nat} (hp : f p = true) :
    ∀ (n i : Nat), i ≤ p → p < i + n → (∀ q, i ≤ q → q < p → f q = false) → firstFrom f i n = p := by
  intro n
  induction n with
  | zero => intro i h1 h2; omega
  | succ n ih =>
    intro i h1 h2 h3
    unfold firstFrom
    by_cases h : i = p
    · subst h; simp [hp]
    · rw [h3 i (by omega) (by omega)]
      simp only [Bool.false_eq_true, if_false]
      exact ih (i + 1) (by omega) (by omega) (fun q a b => h3 q (by omega) b)

omit [Profile] in
theorem ctz_eq {w : Word} {p : Nat} (hp : p < 64) (h1 : w.getLsbD p = true)
    (h2 : ∀ q, q < p → w.getLsbD q = false) : ctz w = p :=
  firstFrom_eq h1 64 0 (by omega) (by omega) (fun q _ h => h2 q h)

/-- select in a word -/
theorem selectInWord_eq {w : Word} {k : Nat} (hk : k < popcount w) :
    ∃ p, selectInWord k w = .ok p ∧ p < 64 ∧ w.getLsbD p = true ∧ cnt w.getLsbD p = k := by
  have h64 := popcount_le w
  obtain ⟨p, hp1, hp2, hp3⟩ := exists_of_lt_cnt hk
  refine ⟨p, ?_, hp1, hp2, hp3⟩
  unfold selectInWord
  rw [if_pos (by omega)]
  obtain ⟨r, hr1, hr2⟩ := pdep_eq (1#64 <<< k) w
  rw [ok_bind, hr1, ok_bind, pure_eq_ok]
  congr 1
  apply ctz_eq hp1
  · rw [hr2 p hp1, one_shl_getLsbD _ _ (by omega), hp2, hp3]; simp
  · intro q hq
    rw [hr2 q (by omega), one_shl_getLsbD _ _ (by omega)]
    cases hwq : w.getLsbD q with
    | false => rfl
    | true =>
      have := cnt_lt_of_true hq hwq
      have : cnt w.getLsbD q ≠ k := by omega
      simp [this]

end Vers
