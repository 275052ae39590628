import Verif.Proofs.PdepWidth

/-! # C49: parallel bit deposit and select in a word -/

namespace Vers

variable [Profile]

omit [Profile] in
/-- `pdep` terminates and deposits the low bits of `value` at the set positions of `mask`: the `k`-th set
bit of the mask (counted from 0) receives bit `k` of the value, every other bit of the result is 0. -/
theorem C49_pdep (value mask : Word) :
    ∃ r, pdep value mask = .ok r ∧ ∀ i, i < 64 →
      r.getLsbD i = (mask.getLsbD i &&
        value.getLsbD (((List.range i).filter mask.getLsbD).length)) := by
  obtain ⟨r, h1, h2⟩ := pdep_eq value mask
  refine ⟨r, h1, fun i hi => ?_⟩
  rw [h2 i hi, cnt_eq_countP_range, List.countP_eq_length_filter]

example := C49_pdep 0b101#64 0b11010#64

/-- Select in a word: for every word with more than `k` set bits, `(1 << k).pdep(w).trailing_zeros()`
is the position of a set bit that has exactly `k` set bits below it. -/
theorem C49_select_in_word (w : Word) (k : Nat)
    (hk : k < ((List.range 64).filter w.getLsbD).length) :
    ∃ p, selectInWord k w = .ok p ∧ p < 64 ∧ w.getLsbD p = true ∧
      ((List.range p).filter w.getLsbD).length = k := by
  rw [← List.countP_eq_length_filter, ← cnt_eq_countP_range] at hk
  obtain ⟨p, h1, h2, h3, h4⟩ := selectInWord_eq hk
  exact ⟨p, h1, h2, h3, by rw [← List.countP_eq_length_filter, ← cnt_eq_countP_range, h4]⟩

example := C49_select_in_word 0b10110#64 2 (by decide)

/-- The other integer types: `pdep` of unsigned integers of any width deposits the low bits of the value at
the set positions of the mask. The same holds for signed integers in release builds, and in debug builds if
the mask is not negative. -/
theorem C49_pdep_types {w : Nat} (hw : 0 < w) (signed : Bool) (value mask : BitVec w)
    (h : signed = false ∨ Profile.debug = false ∨ 0 ≤ mask.toInt) :
    ∃ r, pdepW signed value mask = .ok r ∧ ∀ i, i < w →
      r.getLsbD i = (mask.getLsbD i &&
        value.getLsbD (((List.range i).filter mask.getLsbD).length)) := by
  have key := pdepW_eq hw signed value mask
  rw [if_neg] at key
  · obtain ⟨r, h1, h2⟩ := key
    refine ⟨r, h1, fun i hi => ?_⟩
    rw [h2 i hi, cnt_eq_countP_range, List.countP_eq_length_filter]
  · rintro ⟨a, b, c⟩
    rcases h with h | h | h
    · simp [a] at h
    · simp [b] at h
    · have : mask.msb = true := by rw [BitVec.msb_eq_getLsbD_last]; exact c
      rw [BitVec.msb_eq_toInt] at this
      simp at this; omega

example := C49_pdep_types (w := 16) (by decide) true 0b101#16 0b1001010#16 (.inr (.inr (by decide)))

/-- For signed integers the full statement is false in debug builds: with a negative mask the subtraction
that clears the last set bit (the sign bit) overflows. -/
theorem C49_pdep_signed_defect (hd : Profile.debug = true) {w : Nat} (value mask : BitVec w)
    (h : mask.toInt < 0) : pdepW true value mask = .error .overflow := by
  have hw : 0 < w := by
    rcases Nat.eq_zero_or_pos w with rfl | h'
    · exfalso
      have h0 : mask = 0#0 := BitVec.eq_nil mask
      subst h0; simp at h
    · exact h'
  have key := pdepW_eq hw true value mask
  rw [if_pos] at key
  · exact key
  · refine ⟨rfl, hd, ?_⟩
    have : mask.msb = true := by rw [BitVec.msb_eq_toInt]; simpa using h
    rw [BitVec.msb_eq_getLsbD_last] at this; exact this

example (hd : Profile.debug = true) : pdepW (w := 8) true 0b11#8 0b10000001#8 = .error .overflow :=
  C49_pdep_signed_defect hd _ _ (by decide)

/-- The `u64` instance of the model of all integer types is the one used by the rest of the model. -/
theorem C49_pdep_u64 (value mask : Word) : pdepW false value mask = pdep value mask := by
  obtain ⟨r, h1, h2⟩ := C49_pdep value mask
  obtain ⟨s, h3, h4⟩ := C49_pdep_types (by omega) false value mask (.inl rfl)
  rw [h1, h3]
  congr 1
  exact BitVec.eq_of_getLsbD_eq fun i hi => by rw [h2 i hi, h4 i hi]

example : pdepW (w := 8) false 0b101#8 0b11001010#8 = .ok 0b01000010#8 := by decide +revert +kernel
example : pdepW (w := 16) true 0b101#16 0b1001010#16 = .ok 0b1000010#16 := by decide +revert +kernel
example : (0b10000001#8).toInt < 0 := by decide

example : selectInWord 2 0b10110#64 = .ok 4 := by decide +revert +kernel
example : pdep 0b101#64 0b11010#64 = .ok 0b10010#64 := by decide +kernel

omit [Profile] in
/-- Builds with and without the `bmi2` target feature agree: the instruction deposits the low bits of the value at the
set positions of the mask, for every width and without any restriction on the sign, and the `u64` instance of the
portable loop, which is the one the crate calls, returns the same. -/
theorem C49_bmi2 :
    (∀ {w : Nat} (value mask : BitVec w) (i : Nat), i < w → (pdepBmi2 value mask).getLsbD i = (mask.getLsbD i &&
        value.getLsbD (((List.range i).filter mask.getLsbD).length))) ∧
      ∀ value mask : Word, pdep value mask = .ok (pdepBmi2 value mask) := by
  have key : ∀ {w : Nat} (value mask : BitVec w) (i : Nat), i < w →
      (pdepBmi2 value mask).getLsbD i = (mask.getLsbD i &&
        value.getLsbD (((List.range i).filter mask.getLsbD).length)) := fun value mask =>
    bmi2Loop_eq value mask _ 0 0 0#_ (by omega) (by simp) (by simp) (fun i hi => by omega)
  refine ⟨key, fun value mask => ?_⟩
  obtain ⟨r, h1, h2⟩ := C49_pdep value mask
  rw [h1]
  congr 1
  apply BitVec.eq_of_getLsbD_eq
  intro i hi
  rw [h2 i hi, key value mask i hi]

example : pdepBmi2 (0b1011#8) (0b01110110#8) = 0b00100110#8 := by decide

end Vers
