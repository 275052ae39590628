import Verif.Proofs.BpTotal

set_option linter.unusedSimpArgs false

/-! # Searches for excesses that are out of reach

A relative excess larger than the sequence cannot be found. Close to the bounds of `i64`, the search leaves
the range of the type on the way: it panics in debug builds and wraps around in release builds. The wrapped
value is still out of reach, such that the result is right. -/

namespace Vers

variable [Profile]
open Spec Lookup

/-- The result satisfies `P`, or a debug build panics because of an overflow. -/
def EndsIn {α : Type} (P : α → Prop) (x : R α) : Prop :=
  (∃ a, x = .ok a ∧ P a) ∨ (Profile.debug = true ∧ x = .error .overflow)

theorem EndsIn.ok {α : Type} {P : α → Prop} {a : α} (h : P a) : EndsIn P (.ok a) := Or.inl ⟨a, rfl, h⟩

theorem EndsIn.bind {α β : Type} {P : α → Prop} {Q : β → Prop} {x : R α} {f : α → R β} (h : EndsIn P x)
    (hf : ∀ a, P a → EndsIn Q (f a)) : EndsIn Q (x >>= f) := by
  rcases h with ⟨a, rfl, ha⟩ | ⟨hd, rfl⟩
  · exact hf a ha
  · exact Or.inr ⟨hd, rfl⟩

theorem EndsIn.mono {α : Type} {P Q : α → Prop} {x : R α} (h : EndsIn P x) (hf : ∀ a, P a → Q a) : EndsIn Q x := by
  rcases h with ⟨a, rfl, ha⟩ | h
  · exact Or.inl ⟨a, rfl, hf a ha⟩
  · exact Or.inr h

/-- An `i64` whose absolute value is larger than `d`. -/
def Far (d : Nat) (rel : Int) : Prop :=
  -9223372036854775808 ≤ rel ∧ rel ≤ 9223372036854775807 ∧ d < rel.natAbs

omit [Profile] in
theorem bmod_high {a : Int} (h : 9223372036854775807 < a) (h2 : a ≤ 18446744073709551615) :
    a.bmod (2 ^ 64) = a - 18446744073709551616 := by
  rw [Int.bmod_def]; split <;> omega

omit [Profile] in
theorem bmod_low {a : Int} (h : a < -9223372036854775808) (h2 : -18446744073709551616 ≤ a) :
    a.bmod (2 ^ 64) = a + 18446744073709551616 := by
  rw [Int.bmod_def]; split <;> omega

theorem wrapR_endsIn {α : Type} {P : α → Prop} {a : α} (h : P a) : EndsIn P (wrapR a) := by
  cases hd : (Profile.debug : Bool) with
  | true => exact Or.inr ⟨hd, wrapR_debug hd a⟩
  | false => exact Or.inl ⟨a, wrapR_release hd a, h⟩

theorem addI_far {d c : Nat} {rel s : Int} (h : Far (d + c) rel) (hs : s.natAbs ≤ c) : EndsIn (Far d) (addI rel s) := by
  obtain ⟨h1, h2, h3⟩ := h
  unfold addI
  split
  · exact EndsIn.ok ⟨by omega, by omega, by omega⟩
  · apply wrapR_endsIn
    rcases Int.lt_or_le (rel + s) (-9223372036854775808) with hc | hc
    · rw [bmod_low hc (by omega)]; exact ⟨by omega, by omega, by omega⟩
    · rw [bmod_high (by omega) (by omega)]; exact ⟨by omega, by omega, by omega⟩

theorem subI_far {d c : Nat} {rel s : Int} (h : Far (d + c) rel) (hs : s.natAbs ≤ c) : EndsIn (Far d) (subI rel s) := by
  have := addI_far (s := -s) h (by omega)
  unfold addI at this
  unfold subI
  exact this

/-- The search goes on, with an excess that is out of reach. -/
def Missed (d : Nat) (f : Found) : Prop := ∃ r, f = .miss r ∧ Far d r

namespace Lookup

theorem processFwd_far (k : Variant) {l : List Bool} (hl : l.length = k.size) {d : Nat} {rel : Int}
    (h : Far (d + k.size) rel) : EndsIn (Missed d) (processFwd k (bitsToNat l) rel) := by
  have hb := bitsToNat_lt l
  have hn := natToBits_bitsToNat l
  have b1 := excess_natAbs_le l
  have b2 := minPre_natAbs_le l
  have b3 := maxPre_natAbs_le l
  rw [hl] at hb hn b1 b2 b3
  cases k with
  | u8 =>
    simp only [Variant.size] at *
    show EndsIn _ (processFwd8 _ _)
    unfold processFwd8
    rw [table8_eq, ok_bind, idx_ent true hb, ok_bind, (ent_minmax _ hb).1, (ent_minmax _ hb).2, hn,
      if_neg (by intro hc; have := h.2.2; omega), totalExcess_eq, hn]
    exact (subI_far h b1).bind fun r hr => EndsIn.ok ⟨r, rfl, hr⟩
  | u16 =>
    simp only [Variant.size] at *
    show EndsIn _ (processFwd16 _ _)
    unfold processFwd16
    rw [idx_table16 hb, ok_bind, (entry16_minmax _).1, (entry16_minmax _).2, hn,
      if_neg (by intro hc; have := h.2.2; omega), totalExcess_eq, hn]
    exact (subI_far h b1).bind fun r hr => EndsIn.ok ⟨r, rfl, hr⟩

theorem processBwd_far (k : Variant) {l : List Bool} (hl : l.length = k.size) {d : Nat} (hd : 16 ≤ d) {rel : Int}
    (h : Far (d + k.size) rel) : EndsIn (Missed d) (processBwd k (bitsToNat l) rel) := by
  have hb := bitsToNat_lt l
  have hn := natToBits_bitsToNat l
  have b1 := excess_natAbs_le l
  have b2 := minPre_natAbs_le l
  have b3 := maxPre_natAbs_le l
  rw [hl] at hb hn b1 b2 b3
  cases k with
  | u8 =>
    simp only [Variant.size] at *
    show EndsIn _ (processBwd8 _ _)
    unfold processBwd8
    rw [totalExcess_eq, hn]
    refine (addI_far h b1).bind fun r hr => ?_
    rw [table8_eq, ok_bind, idx_ent true hb, ok_bind, (ent_minmax _ hb).1, (ent_minmax _ hb).2, hn,
      if_neg (by intro hc; have := hr.2.2; omega)]
    exact EndsIn.ok ⟨r, rfl, hr⟩
  | u16 =>
    simp only [Variant.size] at *
    show EndsIn _ (processBwd16 _ _)
    unfold processBwd16
    rw [totalExcess_eq, hn]
    refine (addI_far h b1).bind fun r hr => ?_
    rw [idx_table16 hb, ok_bind, (entry16_minmax _).1, (entry16_minmax _).2, hn,
      if_neg (by intro hc; have := hr.2.2; omega)]
    exact EndsIn.ok ⟨r, rfl, hr⟩

end Lookup

namespace MMT

section
variable {b : List Bool} {bs K L : Nat} {t : MMT}

omit [Profile] in
theorem inRange_far (h : Ok b bs K L t.nodes) {x : Nat} (hx : x < t.nodes.length) {e : Int} {d : Nat}
    (he : Far d e) (hd : min (hi K bs x) b.length - lo K bs x ≤ d) : t.inRange x e = .ok false := by
  have b2 := minPre_natAbs_le (sec b (lo K bs x) (hi K bs x))
  have b3 := maxPre_natAbs_le (sec b (lo K bs x) (hi K bs x))
  rw [length_sec] at b2 b3
  rw [inRange_eq h hx, decide_eq_false]
  intro hc
  have := he.2.2
  omega

theorem inRangeBwd_far (h : Ok b bs K L t.nodes) {x : Nat} (hx : x < t.nodes.length) {e : Int} {d c : Nat}
    (he : Far (d + c) e) (hc : min (hi K bs x) b.length - lo K bs x ≤ c) (hcd : c ≤ d) :
    EndsIn (· = false) (t.inRangeBwd x e) := by
  unfold inRangeBwd
  have hab := sec_natAbs b (lo K bs x) (hi K bs x)
  rw [totalExcess_eq h hx, ok_bind]
  refine (addI_far he (by omega)).bind fun r hr => ?_
  rw [if_neg (by have := hr.2.2; omega), inRange_far h hx hr (by omega)]
  exact EndsIn.ok rfl

theorem fwdUp_far (h : Ok b bs K L t.nodes) :
    ∀ (fuel x : Nat) (rel : Int), x < t.nodes.length → 0 < x → x < fuel →
      Far (b.length - hi K bs x) rel → EndsIn (· = none) (t.fwdUp (t.nodes.length + 1) fuel x rel) := by
  intro fuel
  induction fuel with
  | zero => intro x rel _ _ hf; omega
  | succ fuel ih =>
    intro x rel hx hx0 hf hs
    obtain ⟨p1, p0⟩ := two_pow_K h
    have hlen := h.len
    have hL2 := h.hL2
    rw [fwdUp, dassertR_true hx, ok_bind]
    by_cases hodd : x % 2 = 1
    · obtain ⟨p, rfl⟩ : ∃ p, x = 2 * p + 1 := ⟨x / 2, by omega⟩
      rw [if_neg (by simp [isLeftChild])]
      have hpi : p < 2 ^ K - 1 := by omega
      have m2 := mid_lt_hi (K := K) (bs := bs) h.bs_pos hpi
      rw [hi_left] at hs
      unfold rightSibling
      rw [if_pos hodd]
      by_cases hrs : 2 * p + 1 + 1 ≥ t.nodes.length
      · rw [if_pos hrs]
        exact EndsIn.ok rfl
      · rw [if_neg hrs]
        simp only []
        have hr : 2 * p + 2 < t.nodes.length := by omega
        rw [inRange_far h hr hs (by omega), ok_bind, if_neg (by simp), parent_eq hx, unwrapR_some, ok_bind,
            show (2 * p + 1 - 1) / 2 = p by omega]
        by_cases hp0 : p = 0
        · rw [nonZero, if_pos hp0]
          exact EndsIn.ok rfl
        · rw [nonZero, if_neg hp0]
          simp only []
          have hab := sec_natAbs b (lo K bs (2 * p + 2)) (hi K bs p)
          rw [totalExcess_eq h hr, ok_bind, hi_right hpi]
          refine (subI_far (d := b.length - hi K bs p) (c := min (hi K bs p) b.length - lo K bs (2 * p + 2))
            ⟨hs.1, hs.2.1, by have := hs.2.2; omega⟩ hab).bind fun r hr => ?_
          exact ih p _ (by omega) (by omega) (by omega) hr
    · obtain ⟨p, rfl⟩ : ∃ p, x = 2 * p + 2 := ⟨x / 2 - 1, by omega⟩
      have hpi : p < 2 ^ K - 1 := by omega
      rw [if_pos (by simp [isLeftChild]), parent_eq hx, unwrapR_some, ok_bind,
        show (2 * p + 2 - 1) / 2 = p by omega]
      rw [hi_right hpi] at hs
      by_cases hp0 : p = 0
      · rw [nonZero, if_pos hp0]
        exact EndsIn.ok rfl
      · rw [nonZero, if_neg hp0]
        exact ih p rel (by omega) (by omega) (by omega) hs

theorem fwdSearch_far (h : Ok b bs K L t.nodes) {q : Nat} (hq : q < L) {rel : Int}
    (hs : Far (b.length - (q + 1) * bs) rel) : EndsIn (· = none) (t.fwdSearch q rel) := by
  have hlen := h.len
  have hL2 := h.hL2
  obtain ⟨p1, p0⟩ := two_pow_K h
  unfold fwdSearch
  rw [firstLeaf_eq h, ok_bind, if_neg (by omega), nonZero, if_neg (by omega), unwrapR_some, ok_bind,
    Nat.add_comm q]
  have hh : hi K bs (2 ^ K - 1 + q) = (q + 1) * bs := hi_leaf (by omega)
  refine (fwdUp_far h (t.nodes.length + 1) (2 ^ K - 1 + q) rel (by omega) (by omega) (by omega)
    (by rw [hh]; exact hs)).bind fun o ho => ?_
  subst ho
  exact EndsIn.ok rfl

theorem bwdUp_far (h : Ok b bs K L t.nodes) :
    ∀ (fuel x : Nat) (rel : Int), x < t.nodes.length → 0 < x → x < fuel →
      Far (b.length + lo K bs x) rel → lo K bs x ≤ b.length →
      EndsIn (· = none) (t.bwdUp (t.nodes.length + 1) fuel x rel) := by
  intro fuel
  induction fuel with
  | zero => intro x rel _ _ hf; omega
  | succ fuel ih =>
    intro x rel hx hx0 hf hs hlb
    obtain ⟨p1, p0⟩ := two_pow_K h
    have hlen := h.len
    have hL2 := h.hL2
    rw [bwdUp, dassertR_true hx, ok_bind]
    by_cases hodd : x % 2 = 1
    · obtain ⟨p, rfl⟩ : ∃ p, x = 2 * p + 1 := ⟨x / 2, by omega⟩
      rw [if_pos (by simp [isLeftChild]), parent_eq hx, unwrapR_some, ok_bind,
        show (2 * p + 1 - 1) / 2 = p by omega]
      rw [lo_left] at hs hlb
      by_cases hp0 : p = 0
      · rw [nonZero, if_pos hp0]
        exact EndsIn.ok rfl
      · rw [nonZero, if_neg hp0]
        exact ih p rel (by omega) (by omega) (by omega) hs hlb
    · obtain ⟨p, rfl⟩ : ∃ p, x = 2 * p + 2 := ⟨x / 2 - 1, by omega⟩
      have hpi : p < 2 ^ K - 1 := by omega
      have m1 := lo_lt_mid (K := K) (bs := bs) h.bs_pos hpi
      have hhl := hi_left (K := K) (bs := bs) p
      have hll := lo_left (K := K) (bs := bs) p
      rw [if_neg (by simp [isLeftChild])]
      have hls : leftSibling (2 * p + 2) = some (2 * p + 1) := by
        unfold leftSibling nonZero
        rw [if_pos (by omega), if_neg (by omega)]
        rfl
      rw [hls]
      simp only []
      have hl : 2 * p + 1 < t.nodes.length := by omega
      have hs' : Far (b.length + lo K bs p + (lo K bs (2 * p + 2) - lo K bs p)) rel :=
        ⟨hs.1, hs.2.1, by have := hs.2.2; omega⟩
      refine (inRangeBwd_far h hl hs' (by omega) (by omega)).bind fun f hf => ?_
      subst hf
      rw [if_neg (by simp), parent_eq hx, unwrapR_some, ok_bind, show (2 * p + 2 - 1) / 2 = p by omega]
      by_cases hp0 : p = 0
      · rw [nonZero, if_pos hp0]
        exact EndsIn.ok rfl
      · rw [nonZero, if_neg hp0]
        simp only []
        have hab := sec_natAbs b (lo K bs p) (lo K bs (2 * p + 2))
        rw [totalExcess_eq h hl, ok_bind, hll, hhl]
        refine (addI_far hs' (by omega)).bind fun r hr => ?_
        exact ih p _ (by omega) (by omega) (by omega) hr (by omega)

theorem bwdSearch_far (h : Ok b bs K L t.nodes) {q : Nat} (hq : q < L) {rel : Int} (hqb : q * bs ≤ b.length)
    (hs : Far (b.length + q * bs) rel) : EndsIn (· = none) (t.bwdSearch q rel) := by
  have hlen := h.len
  have hL2 := h.hL2
  obtain ⟨p1, p0⟩ := two_pow_K h
  unfold bwdSearch
  rw [firstLeaf_eq h, ok_bind, if_neg (by omega), nonZero, if_neg (by omega), unwrapR_some, ok_bind,
    Nat.add_comm q]
  have hh : lo K bs (2 ^ K - 1 + q) = q * bs := lo_leaf (by omega)
  refine (bwdUp_far h (t.nodes.length + 1) (2 ^ K - 1 + q) rel (by omega) (by omega) (by omega)
    (by rw [hh]; exact hs) (by rw [hh]; exact hqb)).bind fun o ho => ?_
  subst ho
  exact EndsIn.ok rfl

end
end MMT

namespace BpTree

variable {t : BpTree} {v : BV} {bs : Nat} {k : Variant}

theorem scanFwd_far {vec : RsVec} (h : VecOk vec v) : ∀ (n i : Nat) (rel : Int) (d : Nat), i + n ≤ v.len →
    Far (d + n) rel → EndsIn (Missed d) (scanFwd vec n i rel) := by
  intro n
  induction n with
  | zero => intro i rel d _ hr; exact EndsIn.ok ⟨rel, rfl, hr⟩
  | succ n ih =>
    intro i rel d hi hr
    obtain ⟨x, hx⟩ := exists_bit (v := v) (i := i) (by omega)
    have hsx := sgn_cases x
    rw [scanFwd, getUnchecked_eq h hx, ok_bind, b2w_beq_one]
    refine (subI_far (d := d + n) (c := 1) hr (by omega)).bind fun r hr => ?_
    rw [if_neg (by have := hr.2.2; omega)]
    exact ih _ _ _ (by omega) hr

theorem scanBwd_far {vec : RsVec} (h : VecOk vec v) : ∀ (n i : Nat) (rel : Int) (d : Nat), n ≤ i → i ≤ v.len →
    Far (d + n) rel → EndsIn (Missed d) (scanBwd vec n i rel) := by
  intro n
  induction n with
  | zero => intro i rel d _ _ hr; exact EndsIn.ok ⟨rel, rfl, hr⟩
  | succ n ih =>
    intro i rel d hn hi hr
    obtain ⟨j, rfl⟩ : ∃ j, i = j + 1 := ⟨i - 1, by omega⟩
    obtain ⟨x, hx⟩ := exists_bit (v := v) (i := j) (by omega)
    have hsx := sgn_cases x
    rw [scanBwd, Nat.add_sub_cancel, getUnchecked_eq h hx, ok_bind, b2w_beq_one]
    refine (addI_far (d := d + n) (c := 1) hr (by omega)).bind fun r hr => ?_
    rw [if_neg (by have := hr.2.2; omega)]
    exact ih _ _ _ (by omega) (by omega) hr

theorem tabFwd_far {vec : RsVec} (h : VecOk vec v) (k : Variant) : ∀ (n i : Nat) (rel : Int) (d : Nat),
    i + n * k.size ≤ v.len → Far (d + n * k.size) rel → EndsIn (Missed d) (tabFwd vec k n i rel) := by
  intro n
  induction n with
  | zero => intro i rel d _ hr; exact EndsIn.ok ⟨rel, rfl, by simpa using hr⟩
  | succ n ih =>
    intro i rel d hi hr
    rw [Nat.succ_mul] at hi hr
    have hlen : (sec v.bits i (i + k.size)).length = k.size := by
      rw [length_sec, BV.length_bits]; omega
    rw [tabFwd, block_eq h k (by omega), ok_bind]
    refine (processFwd_far k hlen (d := d + n * k.size) (by rw [Nat.add_assoc]; exact hr)).bind fun f hf => ?_
    obtain ⟨r, rfl, hf⟩ := hf
    exact ih _ _ _ (by omega) hf

theorem tabBwd_far (h : VecOk t.vec v) (k : Variant) (a : Nat) : ∀ (n : Nat) (rel : Int) (d : Nat), 16 ≤ d →
    a + n * k.size ≤ 64 * v.data.length → Far (d + n * k.size) rel → EndsIn (Missed d) (tabBwd t.vec k a n rel) := by
  intro n
  induction n with
  | zero => intro rel d _ _ hr; exact EndsIn.ok ⟨rel, rfl, by simpa using hr⟩
  | succ n ih =>
    intro rel d hd hi hr
    rw [Nat.succ_mul] at hi hr
    obtain ⟨l, l1, l2⟩ := block_total h k (i := a + n * k.size) (by omega)
    rw [tabBwd, l2, ok_bind]
    refine (processBwd_far k l1 (d := d + n * k.size) (by omega) (by rw [Nat.add_assoc]; exact hr)).bind fun f hf => ?_
    obtain ⟨r, rfl, hf⟩ := hf
    exact ih _ _ hd (by omega) hf

theorem fwdBlock_far (h : VecOk t.vec v) (bs : Nat) (k : Variant) {start q d : Nat} {rel : Int}
    (h1 : start + 1 ≤ min ((q + 1) * bs) v.len)
    (hs : Far (d + (min ((q + 1) * bs) v.len - (start + 1))) rel) :
    EndsIn (Missed d) (t.fwdBlock bs k start q rel) := by
  have hsp := Variant.size_pos k
  unfold fwdBlock
  rw [h.2.2]
  have hbl : min ((q + 1) * bs) v.len ≤ v.len := Nat.min_le_right _ _
  generalize hB : min ((q + 1) * bs) v.len = B at h1 hbl hs ⊢
  simp only []
  have hru : start + 1 ≤ (start + 1 + k.size - 1) / k.size * k.size := by
    have := Nat.div_add_mod (start + 1 + k.size - 1) k.size
    have h2 := Nat.mod_lt (start + 1 + k.size - 1) hsp
    rw [Nat.mul_comm]
    omega
  generalize hA : (start + 1 + k.size - 1) / k.size = a at hru ⊢
  generalize hC : B / k.size = c
  have hcB : c * k.size ≤ B := by rw [← hC]; exact Nat.div_mul_le_self _ _
  have hlb1 : start + 1 ≤ min (a * k.size) B := by omega
  obtain ⟨n, hn, hub⟩ : ∃ n, max (min (a * k.size) B) (c * k.size) = min (a * k.size) B + n * k.size ∧
      max (min (a * k.size) B) (c * k.size) ≤ B := by
    by_cases hab : a * k.size ≤ B
    · rw [Nat.min_eq_left hab]
      by_cases hac : a ≤ c
      · refine ⟨c - a, ?_, by omega⟩
        have := Nat.mul_le_mul_right k.size hac
        rw [Nat.sub_mul]; omega
      · refine ⟨0, ?_, ?_⟩
        · have := Nat.mul_le_mul_right k.size (show c ≤ a by omega)
          omega
        · have := Nat.mul_le_mul_right k.size (show c ≤ a by omega)
          omega
    · exact ⟨0, by omega, by omega⟩
  generalize hub' : max (min (a * k.size) B) (c * k.size) = ub at hn hub ⊢
  generalize hlb' : min (a * k.size) B = lb at hlb1 hn hub' ⊢
  rw [steps_of_dvd hsp hn]
  refine (scanFwd_far h (lb - (start + 1)) (start + 1) rel (d + (B - ub) + n * k.size) (by omega)
    ⟨hs.1, hs.2.1, by have := hs.2.2; omega⟩).bind fun f hf => ?_
  obtain ⟨r, rfl, hf⟩ := hf
  refine (tabFwd_far h k n lb r (d + (B - ub)) (by omega) hf).bind fun f hf => ?_
  obtain ⟨r, rfl, hf⟩ := hf
  exact scanFwd_far h _ _ _ _ (by omega) hf

theorem bwdBlock_far (h : VecOk t.vec v) {bs : Nat} (k : Variant) {start q d : Nat} {rel : Int}
    (h1 : q * bs < start) (h3 : start ≤ v.len) (hd : 16 ≤ d) (hs : Far (d + (start - q * bs) + 16) rel) :
    EndsIn (Missed d) (t.bwdBlock bs k start q rel) := by
  have hsp := Variant.size_pos k
  have hsl : k.size = 8 ∨ k.size = 16 := by cases k <;> simp [Variant.size]
  have hdata : v.len ≤ 64 * v.data.length := by
    have := h.1; unfold BV.WF at this; omega
  unfold bwdBlock
  rw [h.2.2, Nat.min_eq_left (by omega : q * bs ≤ v.len), subR_of_le (by omega), ok_bind]
  simp only []
  have hle : (start - 1) / k.size * k.size ≤ start - 1 := Nat.div_mul_le_self _ _
  have hlb : max ((start - 1) / k.size * k.size) (q * bs) < start := by omega
  have hlb2 : (start - 1) / k.size * k.size + k.size ≤ 64 * v.data.length := by
    have e : ∃ d, 64 = d * k.size := by
      rcases hsl with e | e
      · exact ⟨8, by omega⟩
      · exact ⟨4, by omega⟩
    obtain ⟨d, hd⟩ := e
    have h5 : (start - 1) / k.size < v.data.length * d := by
      apply Nat.div_lt_of_lt_mul
      rw [show k.size * (v.data.length * d) = v.data.length * (d * k.size) by ac_rfl, ← hd]
      omega
    have := Nat.mul_le_mul_right k.size h5
    rw [Nat.succ_mul, Nat.mul_assoc, ← hd] at this
    omega
  obtain ⟨lb, hlbe⟩ : ∃ lb, lb = max ((start - 1) / k.size * k.size) (q * bs) := ⟨_, rfl⟩
  rw [← hlbe] at hlb ⊢
  have hst : q * bs + steps (q * bs) lb k.size * k.size ≤ 64 * v.data.length ∧
      steps (q * bs) lb k.size * k.size ≤ lb - q * bs + 16 := by
    have hle2 : steps (q * bs) lb k.size * k.size ≤ lb - q * bs + k.size - 1 := by
      unfold steps; exact Nat.div_mul_le_self _ _
    by_cases hc : q * bs < (start - 1) / k.size * k.size
    · constructor <;> omega
    · have e : lb = q * bs := by omega
      rw [e, steps_of_le hsp (Nat.le_refl _)]; constructor <;> omega
  refine (scanBwd_far h (start - lb) start rel (d + steps (q * bs) lb k.size * k.size) (by omega) h3
    ⟨hs.1, hs.2.1, by have := hs.2.2; omega⟩).bind fun f hf => ?_
  obtain ⟨r, rfl, hf⟩ := hf
  exact tabBwd_far h k _ _ _ _ hd hst.1 hf

/-- A forward search for an excess that is out of reach finds nothing, or overflows. -/
theorem fwdSearch_far (h : Rep t bs v) (k : Variant) (i : Nat) {rel : Int} (hv : 0 < v.len)
    (hs : Far v.len rel) : EndsIn (· = none) (t.fwdSearch bs k i rel) := by
  have hbs := h.bs_pos
  obtain ⟨K, L, hm⟩ := h.mmt
  unfold fwdSearch
  rw [h.vec.2.2, subR_of_le (by omega), ok_bind]
  by_cases hi : i ≥ v.len - 1
  · rw [if_pos hi]; exact EndsIn.ok rfl
  rw [if_neg hi, if_neg (by omega)]
  have hqlt : i + 1 < ((i + 1) / bs + 1) * bs := by
    have := Nat.div_add_mod (i + 1) bs
    have h2 := Nat.mod_lt (i + 1) hbs
    rw [Nat.succ_mul, Nat.mul_comm]; omega
  have hqle : (i + 1) / bs * bs ≤ i + 1 := Nat.div_mul_le_self _ _
  have hcov := hm.cover
  rw [BV.length_bits] at hcov
  have hqL : (i + 1) / bs < L := by
    apply Nat.lt_of_mul_lt_mul_right (a := bs); omega
  generalize (i + 1) / bs = q at hqlt hqle hqL ⊢
  refine (fwdBlock_far h.vec bs k (d := v.len - (q + 1) * bs) (by omega)
    ⟨hs.1, hs.2.1, by have := hs.2.2; omega⟩).bind fun f hf => ?_
  obtain ⟨r, rfl, hf⟩ := hf
  simp only []
  refine (MMT.fwdSearch_far hm hqL (by rw [BV.length_bits]; exact hf)).bind fun o ho => ?_
  subst ho
  exact EndsIn.ok rfl

/-- A backward search for an excess that is out of reach finds nothing, or overflows. -/
theorem bwdSearch_far (h : Rep t bs v) (k : Variant) (i : Nat) {rel : Int}
    (hs : Far (2 * v.len + 32) rel) : EndsIn (· = none) (t.bwdSearch bs k i rel) := by
  have hbs := h.bs_pos
  obtain ⟨K, L, hm⟩ := h.mmt
  unfold bwdSearch
  rw [h.vec.2.2]
  by_cases hi : i ≥ v.len
  · rw [if_pos hi]; exact EndsIn.ok rfl
  rw [if_neg hi]
  by_cases hi0 : i = 0
  · rw [if_pos hi0]; exact EndsIn.ok rfl
  rw [if_neg hi0, if_neg (by omega)]
  have hqlt : i - 1 < ((i - 1) / bs + 1) * bs := by
    have := Nat.div_add_mod (i - 1) bs
    have h2 := Nat.mod_lt (i - 1) hbs
    rw [Nat.succ_mul, Nat.mul_comm]; omega
  have hqle : (i - 1) / bs * bs ≤ i - 1 := Nat.div_mul_le_self _ _
  have hcov := hm.cover
  rw [BV.length_bits] at hcov
  have hqL : (i - 1) / bs < L := by
    apply Nat.lt_of_mul_lt_mul_right (a := bs); omega
  generalize (i - 1) / bs = q at hqlt hqle hqL ⊢
  refine (bwdBlock_far h.vec k (d := v.len + q * bs + 16) (by omega) (by omega) (by omega)
    ⟨hs.1, hs.2.1, by have := hs.2.2; omega⟩).bind fun f hf => ?_
  obtain ⟨r, rfl, hf⟩ := hf
  simp only []
  refine (MMT.bwdSearch_far hm hqL (by rw [BV.length_bits]; omega)
    ⟨hf.1, hf.2.1, by rw [BV.length_bits]; have := hf.2.2; omega⟩).bind fun o ho => ?_
  subst ho
  exact EndsIn.ok rfl

end BpTree
end Vers
