import Verif.Proofs.Lookup
import Verif.Proofs.MmtSearch
import Verif.Props.RsVec

set_option linter.unusedSimpArgs false

/-! # Forward and backward search in a parenthesis sequence -/

namespace Vers

variable [Profile]
open Spec Lookup

namespace BpTree

/-- The bit storage of a tree for `v`. -/
def VecOk (vec : RsVec) (v : BV) : Prop := v.WF ∧ vec.data = v.data ∧ vec.len = v.len

section
variable {vec : RsVec} {v : BV}

omit [Profile] in
theorem getUnchecked_eq (h : VecOk vec v) {i : Nat} {x : Bool} (hx : v.bits[i]? = some x) :
    vec.getUnchecked i = .ok (b2w x) := by
  have hi : i < v.len := by
    apply Classical.byContradiction; intro hc
    rw [List.getElem?_eq_none (by rw [BV.length_bits]; omega)] at hx
    simp at hx
  have h1 := BV.getUnchecked_eq (BV.lt_of_wf h.1 hi)
  unfold RsVec.getUnchecked
  rw [h.2.1]
  unfold BV.getUnchecked at h1
  rw [h1]
  rw [BV.bits_getElem?, if_pos hi] at hx
  rw [Option.some.inj hx]

omit [Profile] in
theorem exists_bit {i : Nat} (hi : i < v.len) : ∃ x, v.bits[i]? = some x :=
  ⟨v.bits[i]'(by rw [BV.length_bits]; exact hi), List.getElem?_eq_getElem _⟩

omit [Profile] in
theorem b2w_beq_one (x : Bool) : (b2w x == 1#64) = x := by cases x <;> rfl

theorem block_eq (h : VecOk vec v) (k : Variant) {i : Nat} (hi : i + k.size ≤ v.len) :
    block vec k i = .ok (bitsToNat (sec v.bits i (i + k.size))) := by
  have hsp := Variant.size_pos k
  have hsl := Variant.size_le k
  have hw := h.1
  have hd : v.len ≤ 64 * v.data.length := by
    have := hw; unfold BV.WF at this; omega
  have e : (v.bits.drop i).take k.size = sec v.bits i (i + k.size) := by
    unfold sec; rw [List.take_drop, Nat.add_comm]
  have hlen : (sec v.bits i (i + k.size)).length = k.size := by
    rw [length_sec, BV.length_bits]; omega
  unfold block RsVec.getBitsUnchecked
  rw [h.2.1]
  obtain ⟨w, h1, h2⟩ := BV.getBitsRaw_toNat (d := v.data) (pos := i) (n := k.size) (by omega) (by omega) (by omega)
  rw [h1, ok_bind, h2, BV.map_lbit_eq_drop_take v i k.size hi, e]
  have hlt := bitsToNat_lt (sec v.bits i (i + k.size))
  rw [hlen] at hlt
  rw [if_pos hlt]; rfl

omit [Profile] in
theorem fwdRes_cons (x : Bool) (l : List Bool) (i : Nat) (rel : Int) :
    fwdRes (x :: l) i rel = if rel - sgn x = 0 then .at i else fwdRes l (i + 1) (rel - sgn x) := by
  by_cases h : rel - sgn x = 0
  · rw [if_pos h, fwdRes_some (m := 0) (by rw [firstExc, if_pos h])]; rfl
  · rw [if_neg h]
    cases hf : firstExc l (rel - sgn x) with
    | some m =>
      rw [fwdRes_some hf, fwdRes_some (m := m + 1) (by rw [firstExc, if_neg h, hf]; rfl)]
      congr 1; omega
    | none =>
      rw [fwdRes_none hf, fwdRes_none (by rw [firstExc, if_neg h, hf]; rfl), excess_cons]
      congr 1; omega

omit [Profile] in
theorem bwdRes_concat (x : Bool) (l : List Bool) (i : Nat) (rel : Int) :
    bwdRes (l ++ [x]) i rel = if rel + sgn x = 0 then .at (i - 1) else bwdRes l (i - 1) (rel + sgn x) := by
  have hc : (l ++ [x]).reverse = x :: l.reverse := by rw [List.reverse_append]; rfl
  have e : -rel - sgn x = -(rel + sgn x) := by omega
  by_cases h : rel + sgn x = 0
  · rw [if_pos h, bwdRes_some (m := 0) (by rw [hc, firstExc, if_pos (by omega)])]; rfl
  · rw [if_neg h]
    cases hf : firstExc l.reverse (-(rel + sgn x)) with
    | some m =>
      rw [bwdRes_some hf, bwdRes_some (m := m + 1) (by rw [hc, firstExc, if_neg (by omega), e, hf]; rfl)]
      congr 1; omega
    | none =>
      rw [bwdRes_none hf, bwdRes_none (by rw [hc, firstExc, if_neg (by omega), e, hf]; rfl), excess_append,
        excess_singleton]
      congr 1; omega

theorem scanFwd_eq (h : VecOk vec v) : ∀ (n i : Nat) (rel : Int), i + n ≤ v.len →
    rel.natAbs + n ≤ 9223372036854775807 →
    scanFwd vec n i rel = .ok (fwdRes (sec v.bits i (i + n)) i rel) := by
  intro n
  induction n with
  | zero =>
    intro i rel _ _
    rw [Nat.add_zero, sec_self]
    simp [scanFwd, fwdRes, firstExc]
  | succ n ih =>
    intro i rel hi hs
    obtain ⟨x, hx⟩ := exists_bit (v := v) (i := i) (by omega)
    have hsx := sgn_cases x
    rw [scanFwd, getUnchecked_eq h hx, ok_bind, b2w_beq_one, subI_of (by omega), ok_bind,
      sec_succ' (by omega) hx, fwdRes_cons, show i + (n + 1) = i + 1 + n by omega]
    split
    · rfl
    · rw [ih (i + 1) _ (by omega) (by omega)]

theorem scanBwd_eq (h : VecOk vec v) : ∀ (n i : Nat) (rel : Int), n ≤ i → i ≤ v.len →
    rel.natAbs + n ≤ 9223372036854775807 →
    scanBwd vec n i rel = .ok (bwdRes (sec v.bits (i - n) i) i rel) := by
  intro n
  induction n with
  | zero =>
    intro i rel _ _ _
    rw [Nat.sub_zero, sec_self]
    simp [scanBwd, bwdRes, firstExc]
  | succ n ih =>
    intro i rel hn hi hs
    obtain ⟨j, rfl⟩ : ∃ j, i = j + 1 := ⟨i - 1, by omega⟩
    obtain ⟨x, hx⟩ := exists_bit (v := v) (i := j) (by omega)
    have hsx := sgn_cases x
    rw [scanBwd, Nat.add_sub_cancel, getUnchecked_eq h hx, ok_bind, b2w_beq_one, addI_of (by omega), ok_bind,
      sec_succ (by omega) hx, bwdRes_concat, Nat.add_sub_cancel, show j + 1 - (n + 1) = j - n by omega]
    split
    · rfl
    · rw [ih j _ (by omega) (by omega) (by omega)]

omit [Profile] in
theorem shift_fwdRes (i : Nat) (l : List Bool) (rel : Int) : shift i (fwdRes l 0 rel) = fwdRes l i rel := by
  unfold fwdRes
  cases firstExc l rel <;> simp [shift]

omit [Profile] in
theorem shift_bwdRes (i : Nat) (l : List Bool) (rel : Int) :
    shift i (bwdRes l l.length rel) = bwdRes l (i + l.length) rel := by
  unfold bwdRes
  cases hf : firstExc l.reverse (-rel) with
  | none => rfl
  | some m =>
    have := firstExc_lt hf
    rw [List.length_reverse] at this
    simp only [shift]; congr 1; omega

theorem tabFwd_eq (h : VecOk vec v) (k : Variant) : ∀ (n i : Nat) (rel : Int), i + n * k.size ≤ v.len →
    rel.natAbs + n * k.size ≤ 9223372036854775807 →
    tabFwd vec k n i rel = .ok (fwdRes (sec v.bits i (i + n * k.size)) i rel) := by
  intro n
  induction n with
  | zero =>
    intro i rel _ _
    rw [Nat.zero_mul, Nat.add_zero, sec_self]
    simp [tabFwd, fwdRes, firstExc]
  | succ n ih =>
    intro i rel hi hs
    rw [Nat.succ_mul] at hi hs
    have hlen : (sec v.bits i (i + k.size)).length = k.size := by
      rw [length_sec, BV.length_bits]; omega
    have hab := excess_natAbs_le (sec v.bits i (i + k.size))
    rw [hlen] at hab
    rw [tabFwd, block_eq h k (by omega), ok_bind, processFwd_eq k hlen (by omega), ok_bind, shift_fwdRes,
      fwdRes_orElse (c := sec v.bits (i + k.size) (i + k.size + n * k.size)), sec_append _ (by omega) (by omega),
      Nat.succ_mul, show i + k.size + n * k.size = i + (n * k.size + k.size) by omega]
    intro _
    rw [hlen]
    exact ih _ _ (by omega) (by omega)

theorem tabBwd_eq (h : VecOk vec v) (k : Variant) (a : Nat) : ∀ (n : Nat) (rel : Int), a + n * k.size ≤ v.len →
    rel.natAbs + n * k.size ≤ 9223372036854775807 → rel ≠ 0 →
    tabBwd vec k a n rel = .ok (bwdRes (sec v.bits a (a + n * k.size)) (a + n * k.size) rel) := by
  intro n
  induction n with
  | zero =>
    intro rel _ _ _
    rw [Nat.zero_mul, Nat.add_zero, sec_self]
    simp [tabBwd, bwdRes, firstExc]
  | succ n ih =>
    intro rel hi hs hr
    rw [Nat.succ_mul] at hi hs ⊢
    have hlen : (sec v.bits (a + n * k.size) (a + n * k.size + k.size)).length = k.size := by
      rw [length_sec, BV.length_bits]; omega
    have hab := excess_natAbs_le (sec v.bits (a + n * k.size) (a + n * k.size + k.size))
    rw [hlen] at hab
    have hsh := shift_bwdRes (a + n * k.size) (sec v.bits (a + n * k.size) (a + n * k.size + k.size)) rel
    rw [hlen] at hsh
    rw [tabBwd, block_eq h k (by omega), ok_bind, processBwd_eq k hlen hr (by omega), ok_bind, hsh,
      bwdRes_orElse (c := sec v.bits a (a + n * k.size)), sec_append _ (by omega) (by omega),
      Nat.add_assoc]
    intro hnone
    rw [hlen, Nat.add_sub_cancel]
    exact ih _ (by omega) (by omega) (MMT.ne_zero_of_rnone hr hnone)

omit [Profile] in
theorem steps_of_dvd {a b s n : Nat} (hs : 0 < s) (h : b = a + n * s) : steps a b s = n := by
  unfold steps
  subst h
  rw [Nat.add_sub_cancel_left, show n * s + s - 1 = s - 1 + n * s by omega, Nat.add_mul_div_right _ _ hs,
    Nat.div_eq_of_lt (by omega)]
  omega

omit [Profile] in
theorem steps_of_le {a b s : Nat} (hs : 0 < s) (h : b ≤ a) : steps a b s = 0 := by
  unfold steps
  rw [show b - a = 0 by omega, Nat.div_eq_of_lt (by omega)]

variable {t : BpTree}

theorem fwdBlock_eq (h : VecOk t.vec v) (bs : Nat) (k : Variant) {start q : Nat} {rel : Int}
    (h1 : start + 1 ≤ min ((q + 1) * bs) v.len)
    (hs : rel.natAbs + v.len ≤ 9223372036854775807 + (start + 1)) :
    t.fwdBlock bs k start q rel =
      .ok (fwdRes (sec v.bits (start + 1) ((q + 1) * bs)) (start + 1) rel) := by
  have hsp := Variant.size_pos k
  unfold fwdBlock
  rw [h.2.2]
  have hbb : sec v.bits (start + 1) ((q + 1) * bs) = sec v.bits (start + 1) (min ((q + 1) * bs) v.len) := by
    rw [sec_clip, BV.length_bits]
  rw [hbb]
  have hbl : min ((q + 1) * bs) v.len ≤ v.len := Nat.min_le_right _ _
  generalize hB : min ((q + 1) * bs) v.len = B at h1 hbl ⊢
  simp only []
  have hru : start + 1 ≤ (start + 1 + k.size - 1) / k.size * k.size := by
    have := Nat.div_add_mod (start + 1 + k.size - 1) k.size
    have h2 := Nat.mod_lt (start + 1 + k.size - 1) hsp
    rw [Nat.mul_comm]
    omega
  generalize hA : (start + 1 + k.size - 1) / k.size = a at hru ⊢
  generalize hC : B / k.size = c
  have hcB : c * k.size ≤ B := by rw [← hC]; exact Nat.div_mul_le_self _ _
  have hlb1 : start + 1 ≤ min (a * k.size) B := by omega
  obtain ⟨n, hn, hub⟩ : ∃ n, max (min (a * k.size) B) (c * k.size) = min (a * k.size) B + n * k.size ∧
      max (min (a * k.size) B) (c * k.size) ≤ B := by
    by_cases hab : a * k.size ≤ B
    · rw [Nat.min_eq_left hab]
      by_cases hac : a ≤ c
      · refine ⟨c - a, ?_, by omega⟩
        have := Nat.mul_le_mul_right k.size hac
        rw [Nat.sub_mul]; omega
      · refine ⟨0, ?_, ?_⟩
        · have := Nat.mul_le_mul_right k.size (show c ≤ a by omega)
          omega
        · have := Nat.mul_le_mul_right k.size (show c ≤ a by omega)
          omega
    · exact ⟨0, by omega, by omega⟩
  generalize hub' : max (min (a * k.size) B) (c * k.size) = ub at hn hub ⊢
  generalize hlb' : min (a * k.size) B = lb at hlb1 hn hub' ⊢
  have e1 := scanFwd_eq h (lb - (start + 1)) (start + 1) rel (by omega) (by omega)
  rw [show start + 1 + (lb - (start + 1)) = lb by omega] at e1
  have a1 := MMT.sec_natAbs v.bits (start + 1) lb
  have a2 := MMT.sec_natAbs v.bits lb ub
  rw [BV.length_bits] at a1 a2
  have l1 := length_sec v.bits (start + 1) lb
  have l2 := length_sec v.bits lb ub
  rw [BV.length_bits] at l1 l2
  rw [e1, ok_bind, steps_of_dvd hsp hn]
  rw [fwdRes_orElse (c := sec v.bits lb B), sec_append _ hlb1 (by omega)]
  intro _
  rw [l1, show start + 1 + (min lb v.len - (start + 1)) = lb by omega]
  rw [tabFwd_eq h k n lb _ (by omega) (by omega), ok_bind, ← hn,
    fwdRes_orElse (c := sec v.bits ub B), sec_append _ (by omega) (by omega)]
  intro _
  rw [l2, show lb + (min ub v.len - lb) = ub by omega]
  have e3 := scanFwd_eq h (B - ub) ub
    (rel - Spec.excess (sec v.bits (start + 1) lb) - Spec.excess (sec v.bits lb ub)) (by omega) (by omega)
  rw [show ub + (B - ub) = B by omega] at e3
  exact e3

/-- The table lookups of a backward search end at a block boundary. -/
def BwdFits (bs : Nat) (k : Variant) : Prop := k.size ∣ bs ∨ bs ∣ k.size

theorem bwdBlock_eq_of (h : VecOk t.vec v) {bs : Nat} {k : Variant}
    {start q : Nat} {rel : Int} (h1 : q * bs < start) (h3 : start ≤ v.len)
    (hs : rel.natAbs + start ≤ 9223372036854775807)
    (hmul : ∃ n, max ((start - 1) / k.size * k.size) (q * bs) = q * bs + n * k.size) :
    t.bwdBlock bs k start q rel = .ok (bwdRes (sec v.bits (q * bs) start) start rel) := by
  have hsp := Variant.size_pos k
  unfold bwdBlock
  rw [h.2.2, Nat.min_eq_left (by omega : q * bs ≤ v.len), subR_of_le (by omega), ok_bind]
  simp only []
  have hle : (start - 1) / k.size * k.size ≤ start - 1 := Nat.div_mul_le_self _ _
  obtain ⟨n, hn⟩ := hmul
  have hlb : max ((start - 1) / k.size * k.size) (q * bs) < start := by omega
  generalize max ((start - 1) / k.size * k.size) (q * bs) = lb at hn hlb
  have e1 := scanBwd_eq h (start - lb) start rel (by omega) h3 (by omega)
  rw [show start - (start - lb) = lb by omega] at e1
  have a1 := MMT.sec_natAbs v.bits lb start
  have l1 := length_sec v.bits lb start
  rw [BV.length_bits] at a1 l1
  rw [e1, ok_bind, steps_of_dvd hsp hn, bwdRes_orElse (c := sec v.bits (q * bs) lb), sec_append _ (by omega) (by omega)]
  intro hnone
  have hr : rel + Spec.excess (sec v.bits lb start) ≠ 0 := by
    intro h0
    have hne : (sec v.bits lb start) ≠ [] := sec_ne_nil hlb (by rw [BV.length_bits]; omega)
    have := (firstExc_none.mp hnone) ((sec v.bits lb start).length - 1) (by
      rw [List.length_reverse]; have := List.length_pos_iff.mpr hne; omega)
    apply this
    rw [List.take_of_length_le (by rw [List.length_reverse]; omega), excess_reverse]
    omega
  rw [l1, show start - (min start v.len - lb) = lb by omega,
    tabBwd_eq h k (q * bs) n _ (by omega) (by omega) hr, ← hn]

theorem bwdBlock_eq (h : VecOk t.vec v) {bs : Nat} {k : Variant} (hfit : BwdFits bs k)
    {start q : Nat} {rel : Int} (h1 : q * bs < start) (h2 : start ≤ (q + 1) * bs) (h3 : start ≤ v.len)
    (hs : rel.natAbs + start ≤ 9223372036854775807) :
    t.bwdBlock bs k start q rel = .ok (bwdRes (sec v.bits (q * bs) start) start rel) := by
  have hle : (start - 1) / k.size * k.size ≤ start - 1 := Nat.div_mul_le_self _ _
  have hmul : ∃ n, max ((start - 1) / k.size * k.size) (q * bs) = q * bs + n * k.size := by
    rcases hfit with ⟨c, hc⟩ | ⟨c, hc⟩
    · by_cases hlt : q * bs ≤ (start - 1) / k.size * k.size
      · refine ⟨(start - 1) / k.size - q * c, ?_⟩
        rw [Nat.sub_mul, show q * c * k.size = q * bs by rw [hc]; ac_rfl]
        omega
      · exact ⟨0, by omega⟩
    · refine ⟨0, ?_⟩
      have : (start - 1) / k.size * k.size ≤ q * bs := by
        rw [hc, show (start - 1) / (bs * c) * (bs * c) = ((start - 1) / (bs * c) * c) * bs by ac_rfl]
        apply Nat.mul_le_mul_right
        apply Nat.le_of_lt_succ
        apply Nat.lt_of_mul_lt_mul_right (a := bs)
        calc (start - 1) / (bs * c) * c * bs = (start - 1) / k.size * k.size := by rw [hc]; ac_rfl
          _ ≤ start - 1 := hle
          _ < (q + 1) * bs := by omega
      omega
  exact bwdBlock_eq_of h h1 h3 hs hmul

/-- The tree belongs to the sequence `v`. -/
structure Rep (t : BpTree) (bs : Nat) (v : BV) : Prop where
  vec : VecOk t.vec v
  bs_pos : 0 < bs
  inv : t.vec.Inv
  mmt : ∃ K L, MMT.Ok v.bits bs K L t.mmt.nodes

omit [Profile] in
theorem hit_ne_zero {l : List Bool} (hl : l ≠ []) {rel : Int} (h : firstExc l rel = none) : rel - Spec.excess l ≠ 0 := by
  intro h0
  have := firstExc_none.mp h (l.length - 1) (by have := List.length_pos_iff.mpr hl; omega)
  apply this
  rw [List.take_of_length_le (by omega)]; omega

/-- The forward search. -/
theorem fwdSearch_eq {bs : Nat} (h : Rep t bs v) (k : Variant) (i : Nat) {rel : Int} (hv : 0 < v.len)
    (hs : rel.natAbs + v.len ≤ 9223372036854775807) :
    t.fwdSearch bs k i rel = .ok ((firstExc (v.bits.drop (i + 1)) rel).map (i + 1 + ·)) := by
  have hbs := h.bs_pos
  obtain ⟨K, L, hm⟩ := h.mmt
  unfold fwdSearch
  rw [h.vec.2.2, subR_of_le (by omega), ok_bind]
  by_cases hi : i ≥ v.len - 1
  · rw [if_pos hi, List.drop_of_length_le (by rw [BV.length_bits]; omega)]; rfl
  rw [if_neg hi, if_neg (by omega)]
  have hqlt : i + 1 < ((i + 1) / bs + 1) * bs := by
    have := Nat.div_add_mod (i + 1) bs
    have h2 := Nat.mod_lt (i + 1) hbs
    rw [Nat.succ_mul, Nat.mul_comm]; omega
  have hqle : (i + 1) / bs * bs ≤ i + 1 := Nat.div_mul_le_self _ _
  have hcov := hm.cover
  rw [BV.length_bits] at hcov
  have hqL : (i + 1) / bs < L := by
    apply Nat.lt_of_mul_lt_mul_right (a := bs); omega
  generalize (i + 1) / bs = q at hqlt hqle hqL ⊢
  rw [fwdBlock_eq h.vec bs k (by omega) (by omega), ok_bind]
  have hsplit : sec v.bits (i + 1) ((q + 1) * bs) ++ v.bits.drop ((q + 1) * bs) = v.bits.drop (i + 1) := by
    rw [← sec_end (l := v.bits) (a := (q + 1) * bs) (c := max v.len ((q + 1) * bs)) (by rw [BV.length_bits]; omega),
      sec_append _ (by omega) (by omega), sec_end (by rw [BV.length_bits]; omega)]
  cases hf : firstExc (sec v.bits (i + 1) ((q + 1) * bs)) rel with
  | some m =>
    rw [fwdRes_some hf]
    simp only []
    rw [← hsplit, firstExc_append_some hf]; rfl
  | none =>
    rw [fwdRes_none hf]
    simp only []
    have hab := MMT.sec_natAbs v.bits (i + 1) ((q + 1) * bs)
    have hr0 := hit_ne_zero (sec_ne_nil hqlt (by rw [BV.length_bits]; omega)) hf
    rw [BV.length_bits] at hab
    obtain ⟨o, g1, g2⟩ := MMT.fwdSearch_eq hm hqL (Or.inl hr0) (by rw [BV.length_bits]; omega)
    rw [g1, ok_bind]
    rcases g2 with ⟨rfl, g3⟩ | ⟨j, rel', rfl, g3⟩
    · simp only []
      rw [← hsplit, firstExc_append_none hf, g3]; rfl
    · simp only []
      obtain ⟨j1, j2, j3, j4, j5⟩ := g3
      have hjb : 0 < j * bs := by
        have : 0 < (q + 1) * bs := by omega
        omega
      have hjlen : j * bs < v.len := by
        apply Classical.byContradiction
        intro hc
        rw [sec_nil (by rw [BV.length_bits]; omega)] at j5
        simp [firstExc] at j5
      have hab2 := MMT.sec_natAbs v.bits ((q + 1) * bs) (j * bs)
      rw [BV.length_bits] at hab2
      have hst : j * bs - 1 + 1 = j * bs := by omega
      rw [subR_of_le (by omega), ok_bind, fwdBlock_eq h.vec bs k (by
        rw [hst, Nat.succ_mul]; omega) (by omega), ok_bind, hst]
      cases hf2 : firstExc (sec v.bits (j * bs) ((j + 1) * bs)) rel' with
      | none => rw [hf2] at j5; simp at j5
      | some m =>
        rw [fwdRes_some hf2]
        have hpre : firstExc (sec v.bits (i + 1) (j * bs)) rel = none := by
          rw [MMT.firstExc_split (by omega) j2 hf, j3]; rfl
        have hsplit2 : sec v.bits (i + 1) (j * bs) ++ (sec v.bits (j * bs) ((j + 1) * bs) ++ v.bits.drop ((j + 1) * bs)) =
            v.bits.drop (i + 1) := by
          rw [← List.append_assoc, sec_append _ (by omega) (by rw [Nat.succ_mul]; omega)]
          rw [← sec_end (l := v.bits) (a := (j + 1) * bs) (c := max v.len ((j + 1) * bs)) (by rw [BV.length_bits]; omega),
            sec_append _ (by rw [Nat.succ_mul]; omega) (by omega), sec_end (by rw [BV.length_bits]; omega)]
        have hre : rel - Spec.excess (sec v.bits (i + 1) (j * bs)) = rel' := by
          rw [j4, ← sec_append v.bits (by omega : i + 1 ≤ (q + 1) * bs) j2, excess_append]; omega
        rw [← hsplit2, firstExc_append_none hpre, hre, firstExc_append_some hf2]
        simp only [found?, Option.map_some, pure_eq_ok]
        rw [length_sec, BV.length_bits]
        congr 2; omega

/-- The backward search. -/
theorem bwdSearch_eq {bs : Nat} (h : Rep t bs v) {k : Variant} (hfit : BwdFits bs k) {i : Nat} {rel : Int}
    (hi : i < v.len) (hs : rel.natAbs + v.len ≤ 9223372036854775807) :
    t.bwdSearch bs k i rel = .ok ((firstExc (v.bits.take i).reverse (-rel)).map (i - 1 - ·)) := by
  have hbs := h.bs_pos
  obtain ⟨K, L, hm⟩ := h.mmt
  unfold bwdSearch
  rw [h.vec.2.2, if_neg (by omega)]
  by_cases hi0 : i = 0
  · subst hi0
    rw [if_pos rfl]; simp [firstExc]
  rw [if_neg hi0, if_neg (by omega)]
  have hqlt : i - 1 < ((i - 1) / bs + 1) * bs := by
    have := Nat.div_add_mod (i - 1) bs
    have h2 := Nat.mod_lt (i - 1) hbs
    rw [Nat.succ_mul, Nat.mul_comm]; omega
  have hqle : (i - 1) / bs * bs ≤ i - 1 := Nat.div_mul_le_self _ _
  have hcov := hm.cover
  rw [BV.length_bits] at hcov
  have hqL : (i - 1) / bs < L := by
    apply Nat.lt_of_mul_lt_mul_right (a := bs); omega
  generalize (i - 1) / bs = q at hqlt hqle hqL ⊢
  rw [bwdBlock_eq h.vec hfit (by omega) (by omega) (by omega) (by omega), ok_bind]
  rw [← sec_zero]
  cases hf : firstExc (sec v.bits (q * bs) i).reverse (-rel) with
  | some m =>
    rw [bwdRes_some hf]
    simp only []
    rw [← sec_append v.bits (Nat.zero_le (q * bs)) (by omega : q * bs ≤ i), List.reverse_append,
      firstExc_append_some hf]; rfl
  | none =>
    rw [bwdRes_none hf]
    simp only []
    have hab := MMT.sec_natAbs v.bits (q * bs) i
    rw [BV.length_bits] at hab
    have hr0 : rel + Spec.excess (sec v.bits (q * bs) i) ≠ 0 := by
      have := hit_ne_zero (l := (sec v.bits (q * bs) i).reverse) (by
        rw [ne_eq, List.reverse_eq_nil_iff]; exact sec_ne_nil (by omega) (by rw [BV.length_bits]; omega)) hf
      rw [excess_reverse] at this
      omega
    obtain ⟨o, g1, g2⟩ := MMT.bwdSearch_eq hm hqL hr0 (by rw [BV.length_bits]; omega) (by omega)
    rw [g1, ok_bind]
    rcases g2 with ⟨rfl, g3⟩ | ⟨j, rel', rfl, g3⟩
    · simp only []
      rw [MMT.firstExc_rsplit (Nat.zero_le _) (by omega) hf, sec_zero, g3]; rfl
    · simp only []
      obtain ⟨j1, j2, j3, j4, j5⟩ := g3
      have hab2 := MMT.sec_natAbs v.bits ((j + 1) * bs) (q * bs)
      rw [BV.length_bits] at hab2
      rw [bwdBlock_eq h.vec hfit (by rw [Nat.succ_mul]; omega) (by omega) (by omega) (by omega), ok_bind]
      cases hf2 : firstExc (sec v.bits (j * bs) ((j + 1) * bs)).reverse (-rel') with
      | none => rw [hf2] at j5; simp at j5
      | some m =>
        rw [bwdRes_some hf2]
        have hpre : firstExc (sec v.bits ((j + 1) * bs) i).reverse (-rel) = none := by
          rw [MMT.firstExc_rsplit j2 (by omega) hf, j3]; rfl
        have hre : rel + Spec.excess (sec v.bits ((j + 1) * bs) i) = rel' := by
          rw [j4, ← sec_append v.bits j2 (by omega : q * bs ≤ i), excess_append]; omega
        rw [MMT.firstExc_rsplit (Nat.zero_le _) (by omega) hpre, hre,
          ← sec_append v.bits (Nat.zero_le (j * bs)) (by rw [Nat.succ_mul]; omega), List.reverse_append,
          firstExc_append_some hf2]
        simp only [found?, Option.map_some, pure_eq_ok]
        rw [length_sec, BV.length_bits]
        have hlt := firstExc_lt hf2
        rw [List.length_reverse, length_sec, BV.length_bits] at hlt
        congr 2; omega

/-- Every sequence has a tree. -/
theorem fromBitVector_rep {v : BV} (hw : v.WF) {bs : Nat} (hbs : 0 < bs) (h0 : 0 < v.len)
    (hl : v.len ≤ 9223372036854775807) :
    ∃ t, fromBitVector bs v = .ok t ∧ Rep t bs v := by
  obtain ⟨m, K, L, h1, h2⟩ := MMT.excessTree_ok hw hbs h0 hl
  obtain ⟨rs, g1, g2, g3, g4⟩ := fromBitVec_inv hw
  refine ⟨⟨rs, m⟩, ?_, ⟨⟨hw, g3, g4⟩, hbs, g2, K, L, h2⟩⟩
  unfold fromBitVector
  rw [h1, ok_bind, g1, ok_bind]; rfl

end
end BpTree
end Vers
