import Verif.AbsWavelet
import Verif.Proofs.WaveletQuery

/-!
# Helpers for the wavelet matrix: the queries in both encodings
-/

set_option linter.unusedSimpArgs false

namespace Vers.WM

variable [Profile]
open Spec Vers

/-- The matrix stores the sequence `S` of `k`-bit words. -/
structure Stores (m : WM) (k : Nat) (S : List Nat) : Prop where
  bits : m.data.length = k
  pos : 1 ≤ k
  good : Good m.data S

theorem Stores.len {m : WM} {k : Nat} {S : List Nat} (h : Stores m k S) : m.len = S.length := by
  obtain ⟨data⟩ := m
  have h1 := h.bits; have h2 := h.pos; have h3 := h.good
  cases data with
  | nil => simp at h1; omega
  | cons rs rest =>
    have := h3.2.1.len
    simpa [WM.len, top] using this

theorem Stores.ne {m : WM} {k : Nat} {S : List Nat} (h : Stores m k S) : m.data ≠ [] := by
  intro h0
  have h1 := h.bits; have h2 := h.pos
  rw [h0] at h1; simp at h1; omega

theorem Stores.lt {m : WM} {k : Nat} {S : List Nat} (h : Stores m k S) : ∀ x ∈ S, x < 2 ^ k := by
  intro x hx
  have := h.good.lt x hx
  rwa [h.bits] at this

/-! ## Bits of the query symbol -/

omit [Profile] in
theorem mod_pow_succ (q r : Nat) : q % 2 ^ (r + 1) = q % 2 ^ r + 2 ^ r * (q.testBit r).toNat := by
  rw [Nat.pow_succ, Nat.mod_mul, Nat.testBit_eq_decide_div_mod_eq]
  rcases Nat.mod_two_eq_zero_or_one (q / 2 ^ r) with h | h <;> simp [h]

omit [Profile] in
theorem testBit_top (q r : Nat) : decide (2 ^ r ≤ q % 2 ^ (r + 1)) = q.testBit r := by
  rw [mod_pow_succ]
  have : q % 2 ^ r < 2 ^ r := Nat.mod_lt _ (Nat.two_pow_pos r)
  cases q.testBit r <;> simp <;> omega

omit [Profile] in
theorem top_rest (q r : Nat) :
    (if q % 2 ^ (r + 1) < 2 ^ r then q % 2 ^ (r + 1) else q % 2 ^ (r + 1) - 2 ^ r) = q % 2 ^ r := by
  rw [mod_pow_succ]
  have : q % 2 ^ r < 2 ^ r := Nat.mod_lt _ (Nat.two_pow_pos r)
  cases q.testBit r
  · simp; omega
  · simp

omit [Profile] in
theorem reads_of {read : Nat → R Word} {k q : Nat}
    (h : ∀ level, level < k → read level = .ok (b2w (q.testBit (k - 1 - level)))) :
    ∀ r level, level + r = k → Reads read r level (q % 2 ^ r)
  | 0, _, _ => by simp [Reads, Nat.mod_one]
  | r + 1, level, hk => by
    refine ⟨Nat.mod_lt _ (Nat.two_pow_pos _), ?_, ?_⟩
    · rw [h level (by omega), testBit_top]; congr 3; omega
    · rw [top_rest]; exact reads_of h r (level + 1) (by omega)

theorem reads_BV {k : Nat} {sym : BV} (hs : sym.WF) (hl : sym.len = k) :
    Reads (readBV k sym) k 0 (bitsToNat sym.bits) := by
  have h : ∀ level, level < k → readBV k sym level = .ok (b2w ((bitsToNat sym.bits).testBit (k - 1 - level))) := by
    intro level hlev
    unfold readBV
    rw [subR_of_le (by omega), ok_bind, BV.getUnchecked_eq (BV.lt_of_wf hs (by omega)), testBit_bitsToNat,
      BV.bits_getElem?, if_pos (by omega)]
    rfl
  have := reads_of h k 0 (by omega)
  rwa [Nat.mod_eq_of_lt (by have := bitsToNat_lt sym.bits; rwa [BV.length_bits, hl] at this)] at this

theorem reads_U64 {k : Nat} (sym : Word) (hk : k ≤ 64) : Reads (readU64 k sym) k 0 (sym.toNat % 2 ^ k) := by
  apply reads_of (k := k) _ k 0 (by omega)
  intro level hlev
  unfold readU64
  rw [subR_of_le (by omega), ok_bind, if_pos (by omega), shr_and_one, BitVec.testBit_toNat]
  rfl

/-! ## Rank -/

omit [Profile] in
theorem between_count (l : List Nat) (c : Nat) {s e : Nat} (h : s ≤ e) :
    (l.take e).count c = (l.take s).count c + (between l s e).count c := by
  unfold between
  rw [← List.count_append]
  have : l.take s = (l.take e).take s := by rw [List.take_take, Nat.min_eq_left h]
  rw [this, List.take_append_drop]

theorem rankGen_eq {m : WM} {k : Nat} {S : List Nat} (h : Stores m k S) {read : Nat → R Word} {c : Nat}
    (hr : Reads read k 0 c) {s e : Nat} (hse : s ≤ e) (he : e ≤ S.length) :
    m.rankGen read s e = .ok ((between S s e).count c) := by
  rw [← h.bits] at hr
  obtain ⟨β, b0, b1, b2⟩ := down_up m.data S 0 c h.good hr
  unfold rankGen
  rw [rangeLoop_eq read m.data 0 s e (b1 s (by omega)) (b1 e he), ok_bind]
  have := between_count S c hse
  simp only
  rw [subR_of_le (by omega)]
  congr 1; omega

theorem rankGen_reversed {m : WM} {k : Nat} {S : List Nat} (h : Stores m k S) {read : Nat → R Word} {c : Nat}
    (hr : Reads read k 0 c) {s e : Nat} (hse : e ≤ s) (he : s ≤ S.length) :
    m.rankGen read s e = if (between S e s).count c = 0 then .ok 0 else
      wrapR ((2 ^ 64 - (between S e s).count c) % 2 ^ 64) := by
  rw [← h.bits] at hr
  obtain ⟨β, b0, b1, b2⟩ := down_up m.data S 0 c h.good hr
  unfold rankGen
  rw [rangeLoop_eq read m.data 0 s e (b1 s (by omega)) (b1 e (by omega)), ok_bind]
  have := between_count S c hse
  simp only
  by_cases h0 : (between S e s).count c = 0
  · rw [if_pos h0, subR_of_le (by omega)]; congr 1; omega
  · rw [if_neg h0]; unfold subR; rw [if_neg (by omega)]
    congr 2; omega

/-! ## Select -/

omit [Profile] in
theorem between_one {S : List Nat} {p c : Nat} (h : S[p]? = some c) : (between S p (p + 1)).count c = 1 := by
  have hp : p < S.length := by
    rcases Nat.lt_or_ge p S.length with h' | h'
    · exact h'
    · rw [List.getElem?_eq_none h'] at h; simp at h
  unfold between
  rw [List.getElem?_eq_getElem hp] at h
  injection h with h
  rw [List.drop_take, Nat.add_sub_cancel_left, List.drop_eq_getElem_cons hp, h]
  simp

omit [Profile] in
theorem between_of_take {S : List Nat} {c o r p : Nat} (h1 : S[p]? = some c)
    (h2 : (S.take p).count c = (S.take o).count c + r) : IsNth S c o r p := by
  have hle : o ≤ p := by
    rcases Nat.lt_or_ge p o with h | h
    · exfalso
      have hp : p < S.length := by
        rcases Nat.lt_or_ge p S.length with h | h
        · exact h
        · rw [List.getElem?_eq_none h] at h1; simp at h1
      have e1 := between_count S c (show p ≤ p + 1 by omega)
      have e2 := between_count S c (show p + 1 ≤ o by omega)
      have e3 : (between S p (p + 1)).count c = 1 := by
        exact between_one h1
      omega
    · exact h
  exact ⟨hle, h1, by have := between_count S c hle; omega⟩

omit [Profile] in
theorem isNth_lt {S : List Nat} {c o r p : Nat} (h : IsNth S c o r p) : r < (between S o S.length).count c := by
  obtain ⟨h1, h2, h3⟩ := h
  have hp : p < S.length := by
    rcases Nat.lt_or_ge p S.length with h | h
    · exact h
    · rw [List.getElem?_eq_none h] at h2; simp at h2
  have e0 := between_count S c h1
  have e1 := between_count S c (show p ≤ p + 1 by omega)
  have e2 := between_count S c (show p + 1 ≤ S.length by omega)
  have e4 := between_count S c (show o ≤ S.length by omega)
  have e3 : (between S p (p + 1)).count c = 1 := by
    exact between_one h2
  omega

omit [Profile] in
theorem isNth_unique {S : List Nat} {c o r p q : Nat} (hp : IsNth S c o r p) (hq : IsNth S c o r q) : p = q := by
  have key : ∀ {p q}, IsNth S c o r p → IsNth S c o r q → ¬ p < q := by
    intro p q hp hq hlt
    obtain ⟨h1, h2, h3⟩ := hp
    obtain ⟨g1, g2, g3⟩ := hq
    have e0 := between_count S c h1
    have e1 := between_count S c (show p ≤ p + 1 by omega)
    have e2 := between_count S c (show p + 1 ≤ q by omega)
    have e4 := between_count S c g1
    have hpl : p < S.length := by
      rcases Nat.lt_or_ge p S.length with h | h
      · exact h
      · rw [List.getElem?_eq_none h] at h2; simp at h2
    have e3 : (between S p (p + 1)).count c = 1 := by
      exact between_one h2
    omega
  have h1 := key hp hq
  have h2 := key hq hp
  omega

theorem selectGen_eq {m : WM} {k : Nat} {S : List Nat} (h : Stores m k S) {read : Nat → R Word} {c : Nat}
    (hr : Reads read k 0 c) {o r : Nat} (ho : o ≤ S.length) (hb : S.length + r < 2 ^ 64) :
    (r < (between S o S.length).count c → ∃ p, m.selectGen read o r = .ok p ∧ IsNth S c o r p) ∧
    ((between S o S.length).count c ≤ r → ∃ p, m.selectGen read o r = .ok p ∧ S.length ≤ p) := by
  rw [← h.bits] at hr
  obtain ⟨β, b0, b1, b2⟩ := down_up m.data S 0 c h.good hr
  have e0 := between_count S c ho
  rw [List.take_length] at e0
  have hadd : addU (β + (S.take o).count c) r = .ok (β + ((S.take o).count c + r)) := by
    unfold addU; rw [if_pos (by omega), Nat.add_assoc]
  have hs : m.selectGen read o r = selectUp read m.data 0 (β + ((S.take o).count c + r)) := by
    unfold selectGen
    rw [b1 o ho, ok_bind, hadd, ok_bind]
  rw [hs]
  refine ⟨fun hlt => ?_, fun hge => ?_⟩
  · obtain ⟨q, q1, q2, q3⟩ := (b2 ((S.take o).count c + r)).1 (by omega)
    exact ⟨q, q1, between_of_take q2 q3⟩
  · exact (b2 ((S.take o).count c + r)).2 (by omega)

/-! ## Results -/

/-- A bit vector that holds the first `l` (most significant) bits `p` of a `k`-bit value. -/
def HoldsBV (k l : Nat) (t : BV) (p : Nat) : Prop := t.WF ∧ t.len = k ∧ bitsToNat t.bits = p * 2 ^ (k - l)

/-- A word that holds the first `l` (most significant) bits `p`. -/
def HoldsU (l : Nat) (t : Word) (p : Nat) : Prop := t.toNat = p ∧ p < 2 ^ l

omit [Profile] in
theorem bitsToNat_set : ∀ (l : List Bool) (i : Nat) (b : Bool), l[i]? = some false →
    bitsToNat (l.set i b) = bitsToNat l + b.toNat * 2 ^ i
  | [], _, _, h => by simp at h
  | x :: l, 0, b, h => by
    simp at h; subst h
    simp [bitsToNat]; omega
  | x :: l, i + 1, b, h => by
    have := bitsToNat_set l i b (by simpa using h)
    simp only [List.set_cons_succ, bitsToNat, this, Nat.pow_succ]
    rw [Nat.mul_add, ← Nat.mul_assoc b.toNat, Nat.mul_comm (b.toNat * 2 ^ i) 2]; omega

omit [Profile] in
theorem writeBit {k l : Nat} {t : BV} {p : Nat} (b : Bool) (hl : l < k) (h : HoldsBV k l t p) :
    ∃ t', t.setUnchecked (k - 1 - l) (b2w b) = .ok t' ∧ HoldsBV k (l + 1) t' (2 * p + b.toNat) := by
  obtain ⟨h1, h2, h3⟩ := h
  obtain ⟨t', g1, g2, g3, g4⟩ := BV.setUnchecked_eq h1 (show k - 1 - l < t.len by omega) (b2w b)
  refine ⟨t', g1, g2, by omega, ?_⟩
  have hpow : 2 ^ (k - l) = 2 * 2 ^ (k - 1 - l) := by
    rw [show k - l = (k - 1 - l) + 1 by omega, Nat.pow_succ, Nat.mul_comm]
  have hb : (b2w b).getLsbD 0 = b := by rw [b2w_getLsbD]; simp
  rw [g4, hb, bitsToNat_set, h3, hpow, show k - (l + 1) = k - 1 - l by omega]
  · generalize 2 ^ (k - 1 - l) = q
    rw [Nat.add_mul, Nat.mul_comm 2 p, Nat.mul_assoc]
  · have ht := testBit_bitsToNat t.bits (k - 1 - l)
    rw [h3, hpow] at ht
    have hz : (p * (2 * 2 ^ (k - 1 - l))).testBit (k - 1 - l) = false := by
      rw [Nat.testBit_eq_decide_div_mod_eq, ← Nat.mul_assoc, Nat.mul_div_cancel _ (Nat.two_pow_pos _)]
      simp
    rw [hz] at ht
    rw [BV.bits_getElem?, if_pos (by omega)] at ht ⊢
    simp at ht
    rw [← ht]

omit [Profile] in
theorem holdsBV_init (k : Nat) : HoldsBV k 0 (BV.fromZeros k) 0 := by
  refine ⟨BV.wf_fromZeros k, rfl, ?_⟩
  rw [BV.bits_fromZeros, ← BV.natToBits_zero, bitsToNat_natToBits]; simp

omit [Profile] in
theorem holdsBV_end {k : Nat} {t : BV} {x : Nat} (h : HoldsBV k k t x) : t.bits = natToBits k x := by
  obtain ⟨h1, h2, h3⟩ := h
  have := natToBits_bitsToNat t.bits
  rw [h3, BV.length_bits, h2] at this
  simpa using this.symm

theorem steps_write (k : Nat) : Steps (HoldsBV k) k (fun l b t => writeBV k (b2w b) l t) := by
  intro l t p b hl h
  obtain ⟨t', h1, h2⟩ := writeBit b hl h
  refine ⟨t', ?_, h2⟩
  simp only [writeBV]
  rw [subR_of_le (by omega), ok_bind, h1]

theorem steps_quantBV (k : Nat) : Steps (HoldsBV k) k
    (fun l b t => if b then writeBV k 1#64 l t else (fun _ t => pure t : Nat → BV → R BV) l t) := by
  intro l t p b hl h
  cases b
  · refine ⟨t, rfl, h.1, h.2.1, ?_⟩
    rw [h.2.2, show k - l = k - (l + 1) + 1 by omega, Nat.pow_succ]
    simp only [Bool.toNat_false, Nat.add_zero]
    rw [Nat.mul_comm 2 p, Nat.mul_assoc, Nat.mul_comm 2]
  · exact steps_write k l t p true hl h

omit [Profile] in
theorem steps_down (k : Nat) : Steps (fun l (t : BV × Nat) p => HoldsBV k l t.1 p ∧ t.2 = k - 1 - l) k
    (fun _ b t => writeDown (b2w b) t) := by
  intro l t p b hl h
  obtain ⟨t', h1, h2⟩ := writeBit b hl h.1
  refine ⟨(t', t.2 - 1), ?_, h2, by simp; omega⟩
  simp only [writeDown]
  rw [h.2, h1, ok_bind]; rfl

omit [Profile] in
theorem push_toNat {l : Nat} {t : Word} {p : Nat} (b : Bool) (hl : l < 64) (h : HoldsU l t p) :
    HoldsU (l + 1) ((t <<< 1) ||| b2w b) (2 * p + b.toNat) := by
  obtain ⟨h1, h2⟩ := h
  have hp : 2 * p + b.toNat < 2 ^ (l + 1) := by rw [Nat.pow_succ]; have := Bool.toNat_le b; omega
  have hp64 : p * 2 < 2 ^ 64 := by
    have : 2 ^ (l + 1) ≤ 2 ^ 64 := Nat.pow_le_pow_right (by omega) (by omega)
    omega
  refine ⟨?_, hp⟩
  rw [BitVec.toNat_or, BitVec.toNat_shiftLeft, h1, Nat.shiftLeft_eq, Nat.pow_one, Nat.mod_eq_of_lt hp64]
  have : (b2w b).toNat = b.toNat := by cases b <;> rfl
  rw [this]
  have e := Nat.two_pow_add_eq_or_of_lt (i := 1) (b := b.toNat) (by have := Bool.toNat_le b; omega) p
  simp only [Nat.pow_one] at e
  rw [Nat.mul_comm p 2, ← e]

omit [Profile] in
theorem steps_push (k : Nat) (hk : k ≤ 64) : Steps HoldsU k (fun _ b t => pushBit (b2w b) t) := by
  intro l t p b hl h
  exact ⟨_, rfl, push_toNat b (by omega) h⟩

omit [Profile] in
theorem steps_quantU (k : Nat) (hk : k ≤ 64) : Steps HoldsU k
    (fun l b t => if b then (fun _ t => pure ((t <<< 1) ||| 1#64) : Nat → Word → R Word) l t
      else (fun _ t => pure (t <<< 1) : Nat → Word → R Word) l t) := by
  intro l t p b hl h
  have := push_toNat b (by omega) h
  cases b
  · refine ⟨_, rfl, ?_⟩
    have e : (t <<< 1) ||| b2w false = t <<< 1 := by simp [b2w]
    rw [e] at this; exact this
  · exact ⟨_, rfl, this⟩

omit [Profile] in
theorem resBV_some {k : Nat} {r : R BV} {x : Nat} (h : ∃ t, r = .ok t ∧ HoldsBV k k t x) :
    ResBV k (do let v ← r; pure (some v)) (some x) := by
  obtain ⟨t, h1, h2⟩ := h
  refine ⟨some t, by rw [h1]; rfl, ?_, ?_⟩
  · simp [holdsBV_end h2]
  · intro v hv; simp at hv; subst hv; exact h2.1

omit [Profile] in
theorem resU64_some {k : Nat} {r : R Word} {x : Nat} (h : ∃ t, r = .ok t ∧ HoldsU k t x) :
    ResU64 (do let v ← r; pure (some v)) (some x) := by
  obtain ⟨t, h1, h2⟩ := h
  exact ⟨some t, by rw [h1]; rfl, by simp [h2.1]⟩

omit [Profile] in
theorem resBV_none (k : Nat) : ResBV k (pure none) none := ⟨none, rfl, rfl, by simp⟩
omit [Profile] in
theorem resU64_none : ResU64 (pure none) none := ⟨none, rfl, rfl⟩

omit [Profile] in
theorem resBV_rep {k : Nat} {r : R (Option BV)} {x : Option Nat}
    (h : ∃ o, r = .ok o ∧ Rep (HoldsBV k) k o x) : ResBV k r x := by
  obtain ⟨o, h1, h2⟩ := h
  refine ⟨o, h1, ?_, ?_⟩
  · cases o <;> cases x <;> simp [Rep] at h2 ⊢
    exact holdsBV_end h2
  · intro v hv
    cases o <;> cases x <;> simp [Rep] at h2 hv ⊢
    subst hv; exact h2.1

omit [Profile] in
theorem resU64_rep {k : Nat} {r : R (Option Word)} {x : Option Nat}
    (h : ∃ o, r = .ok o ∧ Rep HoldsU k o x) : ResU64 r x := by
  obtain ⟨o, h1, h2⟩ := h
  refine ⟨o, h1, ?_⟩
  cases o <;> cases x <;> simp [Rep] at h2 ⊢
  exact h2.1

/-! ## Access -/

theorem getValueUnchecked_eq {m : WM} {k : Nat} {S : List Nat} (h : Stores m k S) {i x : Nat} (hx : S[i]? = some x) :
    ∃ t, m.getValueUnchecked i = .ok t ∧ HoldsBV k k t x := by
  have hp := h.pos
  unfold getValueUnchecked bitsPer
  rw [h.bits, subR_of_le hp, ok_bind]
  obtain ⟨t, t1, t2, t3⟩ := reconstruct_eq (steps_down k) m.data S 0 i x 0 (BV.fromZeros k, k - 1) h.good
    (by rw [h.bits]; rfl) hx ⟨holdsBV_init k, by simp⟩
  rw [t1, ok_bind]
  exact ⟨_, rfl, by simpa using t2⟩

theorem getU64Unchecked_eq {m : WM} {k : Nat} {S : List Nat} (h : Stores m k S) (hk : k ≤ 64) {i x : Nat}
    (hx : S[i]? = some x) : ∃ t, m.getU64Unchecked i = .ok t ∧ HoldsU k t x := by
  obtain ⟨t, t1, t2⟩ := reconstruct_eq (steps_push k hk) m.data S 0 i x 0 0#64 h.good
    (by rw [h.bits]; rfl) hx ⟨by simp, by simp⟩
  exact ⟨t, t1, by simpa using t2⟩

/-! ## Quantiles -/

theorem quantile_of {m : WM} {k : Nat} {S : List Nat} (h : Stores m k S) {s e j : Nat} (hse : s ≤ e) (he : e ≤ S.length)
    (hj : j < e - s) :
    ∃ t x, m.quantileUnchecked s e j = .ok t ∧ HoldsBV k k t x ∧ IsQ (between S s e) j x := by
  unfold quantileUnchecked partialQuantile bitsPer
  rw [h.bits, dassertR_true (show (BV.fromZeros k).len = k from rfl), ok_bind, dassertR_true (show s < e by omega), ok_bind,
    dassertR_true (show e ≤ m.len by rw [h.len]; exact he),
    ok_bind, List.drop_zero]
  have hs := Seg.of_take hse he
  obtain ⟨t, x, t1, t2, t3⟩ := quantLoop_eq (steps_quantBV k) m.data S 0 s e j 0 _ (BV.fromZeros k) h.good
    (by rw [h.bits]; rfl) hs (by rw [hs.length]; exact hj) (holdsBV_init k)
  exact ⟨t, x, t1, by simpa using t2, t3⟩

theorem quantileU64_of {m : WM} {k : Nat} {S : List Nat} (h : Stores m k S) (hk : k ≤ 64) {s e j : Nat} (hse : s ≤ e)
    (he : e ≤ S.length) (hj : j < e - s) :
    ∃ t x, m.quantileU64Unchecked s e j = .ok t ∧ HoldsU k t x ∧ IsQ (between S s e) j x := by
  unfold quantileU64Unchecked partialQuantileU64 bitsPer
  rw [h.bits, dassertR_true hk, ok_bind, dassertR_true (show s < e by omega), ok_bind,
    dassertR_true (show e ≤ m.len by rw [h.len]; exact he),
    ok_bind, List.drop_zero]
  have hs := Seg.of_take hse he
  obtain ⟨t, x, t1, t2, t3⟩ := quantLoop_eq (steps_quantU k hk) m.data S 0 s e j 0 _ 0#64 h.good
    (by rw [h.bits]; rfl) hs (by rw [hs.length]; exact hj) ⟨by simp, by simp⟩
  exact ⟨t, x, t1, by simpa using t2, t3⟩

theorem searchOk_BV {m : WM} {k : Nat} {S : List Nat} (h : Stores m k S) (sym : BV) :
    SearchOk (HoldsBV k) m.data S.length (m.searchBV sym) := by
  have hb := h.bits
  refine ⟨?_, ?_⟩
  · rw [hb]
    have := steps_write k
    simp only [searchBV, bitsPer, hb]
    exact this
  · intro S' B level s e j p t hl hg hn hs hj ht
    have hse := hs.length
    have hle := hs.end_le
    have hbp : m.bitsPer = k := hb
    simp only [searchBV, partialQuantile]
    rw [dassertR_true (show t.len = m.bitsPer by rw [hbp]; exact ht.2.1), ok_bind, dassertR_true (show s < e by omega), ok_bind,
      dassertR_true (show e ≤ m.len by rw [h.len]; omega), ok_bind, hbp, hb]
    obtain ⟨t', x, t1, t2, t3⟩ := quantLoop_eq (steps_quantBV k) (m.data.drop level) S' level s e j p B t hg
      (by rw [List.length_drop, hb]; omega) hs hj ht
    refine ⟨t', x, t1, ?_, t3⟩
    rw [List.length_drop, hb] at t2; exact t2

theorem searchOk_U64 {m : WM} {k : Nat} {S : List Nat} (h : Stores m k S) (hk : k ≤ 64) (sym : Word) :
    SearchOk HoldsU m.data S.length (m.searchU64 sym) := by
  have hb := h.bits
  refine ⟨?_, ?_⟩
  · rw [hb]
    have := steps_push k hk
    simp only [searchU64]
    exact this
  · intro S' B level s e j p t hl hg hn hs hj ht
    have hse := hs.length
    have hle := hs.end_le
    simp only [searchU64, partialQuantileU64]
    rw [dassertR_true (show m.bitsPer ≤ 64 by unfold bitsPer; rw [hb]; exact hk), ok_bind, dassertR_true (show s < e by omega), ok_bind,
      dassertR_true (show e ≤ m.len by rw [h.len]; omega), ok_bind]
    obtain ⟨t', x, t1, t2, t3⟩ := quantLoop_eq (steps_quantU k hk) (m.data.drop level) S' level s e j p B t hg
      (by rw [List.length_drop, hb]; omega) hs hj ht
    refine ⟨t', x, t1, ?_, t3⟩
    rw [List.length_drop, hb] at t2; rw [hb]; exact t2

/-! ## The sorted sequence -/

omit [Profile] in
theorem sorted_perm (l : List Nat) : (sorted l).Perm l := List.mergeSort_perm l _

omit [Profile] in
theorem sorted_pairwise (l : List Nat) : (sorted l).Pairwise (· ≤ ·) := by
  have := List.pairwise_mergeSort (le := fun a b : Nat => decide (a ≤ b)) (by intro a b c; simp; omega) (by intro a b; simp; omega) l
  simpa [sorted] using this

omit [Profile] in
theorem isQ_unique {B : List Nat} {j x y : Nat} (hx : IsQ B j x) (hy : IsQ B j y) : x = y := by
  have key : ∀ {x y}, IsQ B j x → IsQ B j y → ¬ x < y := by
    intro x y hx hy hlt
    have h1 := hx.2.2
    have h2 := hy.2.1
    have : B.countP (· ≤ x) ≤ B.countP (· < y) := by
      apply List.countP_mono_left
      intro z _ hz
      simp at hz ⊢; omega
    omega
  have h1 := key hx hy
  have h2 := key hy hx
  omega

omit [Profile] in
theorem countP_lt_le_of_sorted {l : List Nat} (h : l.Pairwise (· ≤ ·)) {j : Nat} (hj : j < l.length) :
    l.countP (· < l[j]) ≤ j ∧ j < l.countP (· ≤ l[j]) := by
  have e : l = l.take j ++ l.drop j := (List.take_append_drop j l).symm
  have hp : ∀ x ∈ l.take j, x ≤ l[j] := by
    intro x hx
    obtain ⟨i, hi, rfl⟩ := List.mem_iff_getElem.mp hx
    simp at hi
    rw [List.getElem_take]
    exact List.pairwise_iff_getElem.mp h i j (by omega) hj (by omega)
  have hq : ∀ x ∈ l.drop j, l[j] ≤ x := by
    intro x hx
    obtain ⟨i, hi, rfl⟩ := List.mem_iff_getElem.mp hx
    simp at hi
    rw [List.getElem_drop]
    rcases Nat.eq_zero_or_pos i with h0 | h0
    · subst h0; simp
    · exact List.pairwise_iff_getElem.mp h j (j + i) hj (by omega) (by omega)
  generalize hv : l[j] = v at *
  have hdrop : l.drop j = v :: l.drop (j + 1) := by rw [List.drop_eq_getElem_cons hj, hv]
  constructor
  · conv => lhs; rw [e]
    rw [List.countP_append]
    have h0 : (l.drop j).countP (· < v) = 0 := by
      rw [List.countP_eq_zero]; intro a ha; have := hq a ha; simp; omega
    have h1 : (l.take j).countP (· < v) ≤ (l.take j).length := List.countP_le_length
    simp at h1
    omega
  · conv => rhs; rw [e]
    rw [List.countP_append]
    have h1 : (l.take j).countP (· ≤ v) = (l.take j).length := by
      rw [List.countP_eq_length]; intro a ha; simpa using hp a ha
    rw [h1, hdrop, List.countP_cons]
    simp
    omega

omit [Profile] in
theorem sorted_getElem? {B : List Nat} {j x : Nat} (h : IsQ B j x) : (sorted B)[j]? = some x := by
  have hl : (sorted B).length = B.length := (sorted_perm B).length_eq
  have hj : j < (sorted B).length := by
    have h1 := h.2.2
    have h2 : B.countP (· ≤ x) ≤ B.length := List.countP_le_length
    omega
  rw [List.getElem?_eq_getElem hj]
  congr 1
  apply isQ_unique (B := B) (j := j) _ h
  obtain ⟨h1, h2⟩ := countP_lt_le_of_sorted (sorted_pairwise B) hj
  refine ⟨(sorted_perm B).mem_iff.mp (List.getElem_mem hj), ?_, ?_⟩
  · rw [← (sorted_perm B).countP_eq]; exact h1
  · rw [← (sorted_perm B).countP_eq]; exact h2

end Vers.WM
