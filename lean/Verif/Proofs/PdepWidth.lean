import Verif.Proofs.Pdep
import Verif.Model.PdepWidth

set_option linter.unusedSimpArgs false

namespace Vers

variable [Profile]

omit [Profile] in
theorem clearLowest_getLsbD_w {w : Nat} (m : BitVec w) (i : Nat) (hi : i < w) :
    (m &&& (m - 1#w)).getLsbD i = (m.getLsbD i && decide (∃ j < i, m.getLsbD j = true)) := by
  have h : m - 1#w = ~~~(-m) := by simp [BitVec.not_neg]
  rw [h, BitVec.getLsbD_and, BitVec.getLsbD_not, BitVec.getLsbD_neg]
  cases m.getLsbD i <;> simp [hi]

omit [Profile] in
theorem lowest_getLsbD_w {w : Nat} (m : BitVec w) (i : Nat) (hi : i < w) :
    (m &&& -m).getLsbD i = (m.getLsbD i && !decide (∃ j < i, m.getLsbD j = true)) := by
  rw [BitVec.getLsbD_and, BitVec.getLsbD_neg]
  cases m.getLsbD i <;> simp [hi]

omit [Profile] in
theorem one_shl_getLsbD_w {w : Nat} (i j : Nat) (hj : j < w) :
    ((1#w <<< j).getLsbD i) = decide (i = j) := by
  rw [BitVec.getLsbD_shiftLeft, BitVec.getLsbD_one]
  by_cases h : i = j
  · subst h; simp; omega
  · by_cases h1 : i < j
    · simp [h1, h]
    · have : ¬ (i - j = 0) := by omega
      simp [h, this]

omit [Profile] in
theorem and_shl_ne_zero_w {w : Nat} (v : BitVec w) (j : Nat) (hj : j < w) :
    (v &&& (1#w <<< j) ≠ 0#w) ↔ v.getLsbD j = true := by
  constructor
  · intro h
    cases hv : v.getLsbD j with
    | true => rfl
    | false =>
      exfalso
      apply h
      apply BitVec.eq_of_getLsbD_eq
      intro i hi
      rw [BitVec.getLsbD_and, one_shl_getLsbD_w _ _ hj]
      by_cases hij : i = j
      · subst hij; simp [hv]
      · simp [hij]
  · intro h h0
    have := congrArg (fun x => BitVec.getLsbD x j) h0
    simp only [BitVec.getLsbD_and, one_shl_getLsbD_w _ _ hj] at this
    simp [h] at this

omit [Profile] in
theorem shl_add_self_w (w j : Nat) : (1#w <<< j) + (1#w <<< j) = 1#w <<< (j + 1) := by
  apply BitVec.eq_of_toNat_eq
  simp only [BitVec.toNat_add, BitVec.toNat_shiftLeft, Nat.shiftLeft_eq, Nat.pow_succ,
    Nat.add_mod_mod, Nat.mod_add_mod]
  congr 1
  rw [← Nat.mul_assoc]; omega

omit [Profile] in
/-- only the sign bit is set -/
theorem eq_intMin_iff {w : Nat} (hw : 0 < w) (m : BitVec w) :
    m = BitVec.intMin w ↔ ∀ i, i < w → m.getLsbD i = decide (i = w - 1) := by
  constructor
  · rintro rfl i hi
    simp only [BitVec.getLsbD_intMin]
    by_cases h : i = w - 1
    · subst h; simp; omega
    · have : ¬ (i + 1 = w) := by omega
      simp [h, this]
  · intro h
    apply BitVec.eq_of_getLsbD_eq
    intro i hi
    rw [h i hi, BitVec.getLsbD_intMin]
    by_cases h : i = w - 1
    · subst h; simp; omega
    · have : ¬ (i + 1 = w) := by omega
      simp [h, this]

theorem decW_eq {w : Nat} {signed : Bool} {m : BitVec w}
    (h : ¬ (signed = true ∧ Profile.debug = true ∧ m = BitVec.intMin w)) :
    decW signed m = .ok (m - 1#w) := by
  unfold decW
  split
  · rename_i h1
    cases hd : (Profile.debug : Bool) with
    | true => exact absurd ⟨h1.1, hd, h1.2⟩ h
    | false => exact wrapR_release hd _
  · rfl

theorem pdepLoopW_eq {w : Nat} (hw : 0 < w) (signed : Bool) (value m : BitVec w) :
    ∀ (fuel j : Nat) (mask res : BitVec w), fuel + j = w →
      (∀ i, i < w → mask.getLsbD i = (m.getLsbD i && decide (j ≤ cnt m.getLsbD i))) →
      (∀ i, i < w → res.getLsbD i =
        (m.getLsbD i && decide (cnt m.getLsbD i < j) && value.getLsbD (cnt m.getLsbD i))) →
      (signed = true → Profile.debug = true → m.getLsbD (w - 1) = true → j ≤ cnt m.getLsbD (w - 1)) →
      if signed = true ∧ Profile.debug = true ∧ m.getLsbD (w - 1) = true then
        pdepLoopW signed value fuel mask res (1#w <<< j) = .error .overflow
      else
      ∃ r, pdepLoopW signed value fuel mask res (1#w <<< j) = .ok r ∧
        ∀ i, i < w → r.getLsbD i = (m.getLsbD i && value.getLsbD (cnt m.getLsbD i)) := by
  -- once the mask is empty, all set bits have been handled
  have done : ∀ (j : Nat) (mask res : BitVec w),
      (∀ i, i < w → mask.getLsbD i = (m.getLsbD i && decide (j ≤ cnt m.getLsbD i))) →
      (∀ i, i < w → res.getLsbD i =
        (m.getLsbD i && decide (cnt m.getLsbD i < j) && value.getLsbD (cnt m.getLsbD i))) →
      (signed = true → Profile.debug = true → m.getLsbD (w - 1) = true → j ≤ cnt m.getLsbD (w - 1)) →
      mask = 0#w →
      ¬ (signed = true ∧ Profile.debug = true ∧ m.getLsbD (w - 1) = true) ∧
      ∀ i, i < w → res.getLsbD i = (m.getLsbD i && value.getLsbD (cnt m.getLsbD i)) := by
    intro j mask res hm hr hs h0
    refine ⟨fun ⟨a, b, c⟩ => ?_, fun i hi => ?_⟩
    · have h1 := hm (w - 1) (by omega)
      rw [h0, c] at h1
      have := hs a b c
      simp at h1; omega
    · have h1 := hm i hi
      rw [h0] at h1
      rw [hr i hi]
      cases hmi : m.getLsbD i with
      | false => simp
      | true =>
        rw [hmi] at h1
        simp at h1
        simp [h1]
  intro fuel
  induction fuel with
  | zero =>
    intro j mask res hj hm hr hs
    have h0 : mask = 0#w := by
      apply BitVec.eq_of_getLsbD_eq
      intro i hi
      rw [hm i hi]
      have := cnt_le m.getLsbD i
      have : ¬ (j ≤ cnt m.getLsbD i) := by omega
      simp [this]
    unfold pdepLoopW
    rw [if_pos h0]
    have hd := done j mask res hm hr hs h0
    rw [if_neg hd.1]
    exact ⟨res, rfl, hd.2⟩
  | succ fuel ih =>
    intro j mask res hj hm hr hs
    unfold pdepLoopW
    by_cases h0 : mask = 0#w
    · rw [if_pos h0]
      have hd := done j mask res hm hr hs h0
      rw [if_neg hd.1]
      exact ⟨res, rfl, hd.2⟩
    · rw [if_neg h0, shl_add_self_w]
      have hex : ∀ i, i < w → ((∃ i' < i, mask.getLsbD i' = true) ↔ j < cnt m.getLsbD i) := by
        intro i hi
        constructor
        · rintro ⟨i', h1, h2⟩
          rw [hm i' (by omega)] at h2
          simp at h2
          have := cnt_lt_of_true h1 h2.1
          omega
        · intro h
          obtain ⟨p, hp, hp1, hp2⟩ := exists_of_lt_cnt h
          refine ⟨p, hp, ?_⟩
          rw [hm p (by omega), hp1, hp2]; simp
      by_cases hmin : signed = true ∧ Profile.debug = true ∧ mask = BitVec.intMin w
      · obtain ⟨a, b, c⟩ := hmin
        have hmsb : m.getLsbD (w - 1) = true := by
          have h1 := hm (w - 1) (by omega)
          rw [(eq_intMin_iff hw mask).1 c _ (by omega)] at h1
          simp at h1; exact h1.1
        rw [if_pos ⟨a, b, hmsb⟩]
        unfold decW
        rw [if_pos ⟨a, c⟩, wrapR_debug b]; rfl
      · rw [decW_eq hmin, ok_bind]
        apply ih (j + 1)
        · omega
        · intro i hi
          rw [clearLowest_getLsbD_w _ _ hi, hm i hi]
          simp only [hex i hi]
          by_cases h1 : j < cnt m.getLsbD i
          · have h2 : j ≤ cnt m.getLsbD i := by omega
            have h3 : j + 1 ≤ cnt m.getLsbD i := by omega
            simp [h1, h2, h3]
          · have h3 : ¬ (j + 1 ≤ cnt m.getLsbD i) := by omega
            simp [h1, h3]
        · intro i hi
          have hjv := and_shl_ne_zero_w value j (by omega)
          have key : (mask &&& -mask).getLsbD i = (m.getLsbD i && decide (cnt m.getLsbD i = j)) := by
            rw [lowest_getLsbD_w _ _ hi, hm i hi]
            simp only [hex i hi]
            rcases Nat.lt_trichotomy (cnt m.getLsbD i) j with h | h | h
            · have : ¬ (j ≤ cnt m.getLsbD i) := by omega
              have h' : cnt m.getLsbD i ≠ j := by omega
              simp [this, h']
            · simp [h]
            · have h' : cnt m.getLsbD i ≠ j := by omega
              simp [h, h']
          by_cases hv : value.getLsbD j = true
          · rw [if_pos (hjv.2 hv), BitVec.getLsbD_or, hr i hi, key]
            rcases Nat.lt_trichotomy (cnt m.getLsbD i) j with h | h | h
            · have h1 : cnt m.getLsbD i ≠ j := by omega
              have h2 : cnt m.getLsbD i < j + 1 := by omega
              simp [h, h1, h2]
            · simp [h, hv]
            · have h0 : ¬ cnt m.getLsbD i < j := by omega
              have h1 : cnt m.getLsbD i ≠ j := by omega
              have h2 : ¬ cnt m.getLsbD i < j + 1 := by omega
              simp [h0, h1, h2]
          · rw [if_neg (fun h => hv (hjv.1 h)), hr i hi]
            rcases Nat.lt_trichotomy (cnt m.getLsbD i) j with h | h | h
            · have h2 : cnt m.getLsbD i < j + 1 := by omega
              simp [h, h2]
            · simp [h]; intro _; simpa using hv
            · have h0 : ¬ cnt m.getLsbD i < j := by omega
              have h2 : ¬ cnt m.getLsbD i < j + 1 := by omega
              simp [h0, h2]
        · intro a b c
          have hj0 := hs a b c
          by_cases h : j < cnt m.getLsbD (w - 1)
          · omega
          · exfalso
            apply hmin
            refine ⟨a, b, (eq_intMin_iff hw mask).2 fun i hi => ?_⟩
            by_cases hiw : i = w - 1
            · subst hiw; rw [hm _ hi, c]; simp; exact hj0
            · cases hmi : mask.getLsbD i with
              | false => simp [hiw]
              | true => exact absurd ((hex (w - 1) (by omega)).1 ⟨i, by omega, hmi⟩) h

theorem pdepW_eq {w : Nat} (hw : 0 < w) (signed : Bool) (value m : BitVec w) :
    if signed = true ∧ Profile.debug = true ∧ m.getLsbD (w - 1) = true then
      pdepW signed value m = .error .overflow
    else ∃ r, pdepW signed value m = .ok r ∧
      ∀ i, i < w → r.getLsbD i = (m.getLsbD i && value.getLsbD (cnt m.getLsbD i)) := by
  have := pdepLoopW_eq hw signed value m w 0 m 0#w (by omega) (by simp) (by simp) (by simp)
  simpa [pdepW] using this

omit [Profile] in
theorem bmi2Loop_eq {w : Nat} (value mask : BitVec w) : ∀ (n m k : Nat) (dest : BitVec w), n + m = w →
    k = ((List.range m).filter mask.getLsbD).length → (∀ i, m ≤ i → dest.getLsbD i = false) →
    (∀ i, i < m → dest.getLsbD i =
      (mask.getLsbD i && value.getLsbD (((List.range i).filter mask.getLsbD).length))) →
    ∀ i, i < w → (bmi2Loop value mask n m k dest).getLsbD i =
      (mask.getLsbD i && value.getLsbD (((List.range i).filter mask.getLsbD).length)) := by
  intro n
  induction n with
  | zero =>
    intro m k dest hm _ _ h2 i hi
    exact h2 i (by omega)
  | succ n ih =>
    intro m k dest hm hk h1 h2
    have hone : ∀ i, i < w → (1#w <<< m).getLsbD i = decide (i = m) := by
      intro i hi
      rw [BitVec.getLsbD_shiftLeft, BitVec.getLsbD_one]
      by_cases hc : i = m
      · subst hc; simp; omega
      · by_cases hl : i < m
        · simp [hl, hc]
        · simp [hc]
          intro _ _
          omega
    have hrange : ((List.range (m + 1)).filter mask.getLsbD).length =
        ((List.range m).filter mask.getLsbD).length + if mask.getLsbD m = true then 1 else 0 := by
      rw [List.range_succ, List.filter_append, List.length_append]
      by_cases hb : mask.getLsbD m = true <;> simp [hb]
    unfold bmi2Loop
    by_cases hb : mask.getLsbD m = true
    · rw [if_pos hb]
      rw [if_pos hb] at hrange
      refine ih (m + 1) (k + 1) _ (by omega) (by omega) (fun i hi => ?_) (fun i hi => ?_)
      · by_cases hw : i < w
        · split
          · rw [BitVec.getLsbD_or, h1 i (by omega), hone i hw]
            simp; omega
          · exact h1 i (by omega)
        · exact BitVec.getLsbD_of_ge _ _ (by omega)
      · by_cases hc : i = m
        · subst hc
          rw [hb, ← hk, Bool.true_and]
          split
          · next hv => rw [BitVec.getLsbD_or, hone i (by omega), hv]; simp
          · next hv => rw [h1 i (Nat.le_refl _)]; simpa using hv
        · have := h2 i (by omega)
          split
          · rw [BitVec.getLsbD_or, hone i (by omega), this]
            simp [hc]
          · exact this
    · rw [if_neg hb]
      rw [if_neg hb] at hrange
      refine ih (m + 1) k dest (by omega) (by omega) (fun i hi => h1 i (by omega)) (fun i hi => ?_)
      by_cases hc : i = m
      · subst hc
        rw [h1 i (Nat.le_refl _)]
        simp at hb
        rw [hb]; rfl
      · exact h2 i (by omega)

end Vers
