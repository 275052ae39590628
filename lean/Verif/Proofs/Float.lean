import Verif.SpecFloat
import Verif.Props.EliasFano
import Verif.Model.Rmq
import Mathlib.Analysis.Complex.ExponentialBounds
import Mathlib.Tactic.Linarith
import Mathlib.Tactic.Ring
import Mathlib.Tactic.NormNum
import Mathlib.Tactic.FieldSimp
import Mathlib.Tactic.Positivity
import Mathlib.Analysis.Convex.SpecificFunctions.Basic

set_option linter.unusedSimpArgs false

/-! # Rounding and logarithms -/

namespace Vers

open Spec Real

theorem log_two_bounds : (1 / 2 : ℝ) < Real.log 2 ∧ Real.log 2 < 1 := by
  have h1 := Real.log_two_gt_d9
  have h2 := Real.log_two_lt_d9
  constructor <;> linarith

namespace Spec.Rounding

variable {r : ℝ → ℤ}

theorem int (h : Rounding r) (z : ℤ) : r z = z := by
  have h1 := abs_le.mp (h.near z)
  have a : ((z - r z : ℤ) : ℝ) ≤ 1 / 2 := by push_cast; linarith [h1.2]
  have b : (-(1 / 2) : ℝ) ≤ ((z - r z : ℤ) : ℝ) := by push_cast; linarith [h1.1]
  have a' : (z - r z : ℤ) < 1 := by
    have : ((z - r z : ℤ) : ℝ) < ((1 : ℤ) : ℝ) := by push_cast at a ⊢; linarith
    exact_mod_cast this
  have b' : (-1 : ℤ) < (z - r z : ℤ) := by
    have : (((-1 : ℤ)) : ℝ) < ((z - r z : ℤ) : ℝ) := by push_cast at b ⊢; linarith
    exact_mod_cast this
  omega

end Spec.Rounding

section
variable {r : ℝ → ℤ}

theorem exp_bounds {x : ℝ} (hx : 0 < x) : (2 : ℝ) ^ Int.log 2 x ≤ x ∧ x < 2 ^ (Int.log 2 x + 1) :=
  ⟨by simpa using Int.zpow_log_le_self (b := 2) (by norm_num) hx,
    by simpa using Int.lt_zpow_succ_log_self (b := 2) (by norm_num) x⟩

theorem zpow_two_mul (a b : ℤ) : (2 : ℝ) ^ a * 2 ^ b = 2 ^ (a + b) := (zpow_add₀ (by norm_num) a b).symm

theorem toF64_of_pos {x : ℝ} (hx : 0 < x) :
    toF64 r x = (r (x * 2 ^ (52 - Int.log 2 x)) : ℝ) * 2 ^ (Int.log 2 x - 52) := by
  unfold toF64; rw [if_neg (not_le.mpr hx)]

theorem toF64_exact (h : Rounding r) {x : ℝ} (hx : 0 < x) {z : ℤ} (hz : x * 2 ^ (52 - Int.log 2 x) = z) :
    toF64 r x = x := by
  rw [toF64_of_pos hx, hz, h.int, ← hz, mul_assoc, zpow_two_mul]
  simp

theorem toF64_bounds (h : Rounding r) {x : ℝ} (hx : 0 < x) :
    (2 : ℝ) ^ Int.log 2 x ≤ toF64 r x ∧ toF64 r x ≤ 2 ^ (Int.log 2 x + 1) := by
  obtain ⟨h1, h2⟩ := exp_bounds hx
  have hp : (0 : ℝ) < 2 ^ (52 - Int.log 2 x) := by positivity
  have hq : (0 : ℝ) < 2 ^ (Int.log 2 x - 52) := by positivity
  have m1 : ((2 ^ 52 : ℤ) : ℝ) ≤ x * 2 ^ (52 - Int.log 2 x) := by
    calc ((2 ^ 52 : ℤ) : ℝ) = 2 ^ Int.log 2 x * 2 ^ (52 - Int.log 2 x) := by
          rw [zpow_two_mul, show Int.log 2 x + (52 - Int.log 2 x) = ((52 : ℕ) : ℤ) by simp, zpow_natCast]; norm_num
      _ ≤ _ := mul_le_mul_of_nonneg_right h1 hp.le
  have m2 : x * 2 ^ (52 - Int.log 2 x) ≤ ((2 ^ 53 : ℤ) : ℝ) := by
    calc x * 2 ^ (52 - Int.log 2 x) ≤ 2 ^ (Int.log 2 x + 1) * 2 ^ (52 - Int.log 2 x) :=
          mul_le_mul_of_nonneg_right h2.le hp.le
      _ = ((2 ^ 53 : ℤ) : ℝ) := by
          rw [zpow_two_mul, show Int.log 2 x + 1 + (52 - Int.log 2 x) = ((53 : ℕ) : ℤ) by ring, zpow_natCast]; norm_num
  have r1 := h.mono m1
  have r2 := h.mono m2
  rw [h.int] at r1 r2
  have r1' : ((2 ^ 52 : ℤ) : ℝ) ≤ r (x * 2 ^ (52 - Int.log 2 x)) := by exact_mod_cast r1
  have r2' : (r (x * 2 ^ (52 - Int.log 2 x)) : ℝ) ≤ ((2 ^ 53 : ℤ) : ℝ) := by exact_mod_cast r2
  rw [toF64_of_pos hx]
  constructor
  · calc (2 : ℝ) ^ Int.log 2 x = ((2 ^ 52 : ℤ) : ℝ) * 2 ^ (Int.log 2 x - 52) := by
          rw [show ((2 ^ 52 : ℤ) : ℝ) = (2 : ℝ) ^ ((52 : ℕ) : ℤ) by rw [zpow_natCast]; norm_num, zpow_two_mul]
          congr 1; push_cast; ring
      _ ≤ _ := mul_le_mul_of_nonneg_right r1' hq.le
  · calc _ ≤ ((2 ^ 53 : ℤ) : ℝ) * 2 ^ (Int.log 2 x - 52) := mul_le_mul_of_nonneg_right r2' hq.le
      _ = 2 ^ (Int.log 2 x + 1) := by
          rw [show ((2 ^ 53 : ℤ) : ℝ) = (2 : ℝ) ^ ((53 : ℕ) : ℤ) by rw [zpow_natCast]; norm_num, zpow_two_mul]
          congr 1; push_cast; ring

theorem toF64_pos (h : Rounding r) {x : ℝ} (hx : 0 < x) : 0 < toF64 r x :=
  lt_of_lt_of_le (by positivity) (toF64_bounds h hx).1

theorem toF64_mono (h : Rounding r) {x y : ℝ} (hxy : x ≤ y) : toF64 r x ≤ toF64 r y := by
  by_cases hx : 0 < x
  · have hy : 0 < y := lt_of_lt_of_le hx hxy
    rcases (Int.log_mono_right (b := 2) hx hxy).lt_or_eq with hlt | he
    · have h1 := (toF64_bounds h hx).2
      have h2 := (toF64_bounds h hy).1
      have : (2 : ℝ) ^ (Int.log 2 x + 1) ≤ 2 ^ Int.log 2 y := zpow_le_zpow_right₀ (by norm_num) (by omega)
      linarith
    · rw [toF64_of_pos hx, toF64_of_pos hy, he]
      apply mul_le_mul_of_nonneg_right _ (by positivity)
      have : x * 2 ^ (52 - Int.log 2 y) ≤ y * 2 ^ (52 - Int.log 2 y) := mul_le_mul_of_nonneg_right hxy (by positivity)
      exact_mod_cast h.mono this
  · have e : toF64 r x = 0 := by unfold toF64; rw [if_pos (not_lt.mp hx)]
    rw [e]
    by_cases hy : 0 < y
    · exact (toF64_pos h hy).le
    · unfold toF64; rw [if_pos (not_lt.mp hy)]

theorem toF64_err (h : Rounding r) {x : ℝ} (hx : 0 < x) : |toF64 r x - x| ≤ 2 ^ (Int.log 2 x - 53) := by
  rw [toF64_of_pos hx]
  have hn := h.near (x * 2 ^ (52 - Int.log 2 x))
  have hq : (0 : ℝ) < 2 ^ (Int.log 2 x - 52) := by positivity
  have e : x = x * 2 ^ (52 - Int.log 2 x) * 2 ^ (Int.log 2 x - 52) := by
    rw [mul_assoc, zpow_two_mul]; simp
  have e2 : (r (x * 2 ^ (52 - Int.log 2 x)) : ℝ) * 2 ^ (Int.log 2 x - 52) - x =
      -((x * 2 ^ (52 - Int.log 2 x) - r (x * 2 ^ (52 - Int.log 2 x))) * 2 ^ (Int.log 2 x - 52)) := by
    rw [sub_mul, ← e]; ring
  rw [e2, abs_neg, abs_mul, abs_of_pos hq]
  calc _ ≤ 1 / 2 * (2 : ℝ) ^ (Int.log 2 x - 52) := mul_le_mul_of_nonneg_right hn hq.le
    _ = 2 ^ (Int.log 2 x - 53) := by
      rw [show (1 / 2 : ℝ) = 2 ^ (-1 : ℤ) by norm_num, zpow_two_mul]; congr 1; ring

theorem toF64_two_pow (h : Rounding r) (k : ℕ) : toF64 r ((2 : ℝ) ^ k) = 2 ^ k := by
  apply toF64_exact h (by positivity) (z := 2 ^ 52)
  have : Int.log 2 ((2 : ℝ) ^ k) = k := by
    have := Int.log_zpow (R := ℝ) (b := 2) (by norm_num) (k : ℤ)
    rwa [zpow_natCast, Nat.cast_ofNat] at this
  rw [this, ← zpow_natCast, zpow_two_mul, show (k : ℤ) + (52 - k) = ((52 : ℕ) : ℤ) by simp, zpow_natCast]
  norm_num

theorem toF64_nat (h : Rounding r) {k : ℕ} (hk : k < 2 ^ 52) : toF64 r (k : ℝ) = k := by
  rcases Nat.eq_zero_or_pos k with rfl | hp
  · unfold toF64; simp
  · have hx : (0 : ℝ) < k := by exact_mod_cast hp
    have hl : Int.log 2 (k : ℝ) = Nat.log 2 k := Int.log_natCast 2 k
    have hle : Nat.log 2 k ≤ 52 := by
      apply Nat.le_of_lt
      exact Nat.log_lt_of_lt_pow (by omega) hk
    apply toF64_exact h hx (z := k * 2 ^ (52 - Nat.log 2 k))
    rw [hl, show (52 : ℤ) - (Nat.log 2 k : ℕ) = ((52 - Nat.log 2 k : ℕ) : ℤ) by omega, zpow_natCast]
    push_cast; rfl

theorem toF64_rel (h : Rounding r) {x : ℝ} (hx : 0 < x) : |toF64 r x - x| ≤ x / 2 ^ 53 := by
  have h1 := toF64_err h hx
  have h2 := (exp_bounds hx).1
  have : (2 : ℝ) ^ (Int.log 2 x - 53) ≤ x / 2 ^ 53 := by
    rw [le_div_iff₀ (by positivity)]
    calc (2 : ℝ) ^ (Int.log 2 x - 53) * 2 ^ 53 = 2 ^ Int.log 2 x := by
          rw [← zpow_natCast, zpow_two_mul]; congr 1; push_cast; ring
      _ ≤ x := h2
  linarith

/-- Correctly rounded logarithms. -/
theorem floatLog_f64 (h : Rounding r) : FloatLog (f64Log2 r) := by
  have lo : ∀ x : ℕ, 1 ≤ x → 1 ≤ toF64 r (x : ℝ) := by
    intro x hx
    have := toF64_mono h (x := ((1 : ℕ) : ℝ)) (y := x) (by exact_mod_cast hx)
    rw [toF64_nat h (by norm_num)] at this
    exact_mod_cast this
  have hi : ∀ x : ℕ, x < 2 ^ 64 → toF64 r (x : ℝ) ≤ 2 ^ 64 := by
    intro x hx
    have := toF64_mono h (x := (x : ℝ)) (y := 2 ^ 64) (by exact_mod_cast hx.le)
    rwa [toF64_two_pow h] at this
  have lhi : ∀ x : ℕ, x < 2 ^ 64 → Real.logb 2 (toF64 r (x : ℝ)) ≤ 64 := by
    intro x hx
    rcases Nat.eq_zero_or_pos x with rfl | hp
    · rw [toF64_nat h (by norm_num)]; simp
    · have := Real.logb_le_logb_of_le (b := 2) (by norm_num) (by linarith [lo x hp]) (hi x hx)
      rwa [show (2 : ℝ) ^ 64 = 2 ^ (64 : ℝ) by norm_num, Real.logb_rpow (by norm_num) (by norm_num)] at this
  have hle : ∀ x : ℕ, x < 2 ^ 64 → f64Log2 r x ≤ 64 := by
    intro x hx
    have := toF64_mono h (lhi x hx)
    have h64 : toF64 r (64 : ℝ) = 64 := by
      have := toF64_nat h (k := 64) (by norm_num)
      exact_mod_cast this
    rwa [h64] at this
  have hmono : ∀ a b : ℕ, 1 ≤ a → a ≤ b → f64Log2 r a ≤ f64Log2 r b := by
    intro a b ha hab
    apply toF64_mono h
    apply Real.logb_le_logb_of_le (by norm_num) (by linarith [lo a ha])
    exact toF64_mono h (by exact_mod_cast hab)
  refine ⟨fun k hk => ?_, fun x h1 h2 => ?_, hle, fun a b ha hab _ => hmono a b (by omega) hab⟩
  · unfold f64Log2
    rw [show ((2 ^ k : ℕ) : ℝ) = (2 : ℝ) ^ k by push_cast; rfl, toF64_two_pow h, Real.logb_pow,
      Real.logb_self_eq_one (by norm_num), mul_one, toF64_nat h (by omega)]
  · have hx : (0 : ℝ) < x := by exact_mod_cast h1
    have y1 := lo x h1
    have hy : 0 < toF64 r (x : ℝ) := by linarith
    obtain ⟨l1, l2⟩ := log_two_bounds
    -- conversion
    have e1 : |Real.logb 2 (toF64 r (x : ℝ)) - Real.logb 2 x| ≤ 1 / 2 ^ 51 := by
      have hrel := toF64_rel h hx
      have hq : |toF64 r (x : ℝ) / x - 1| ≤ 1 / 2 ^ 53 := by
        rw [show toF64 r (x : ℝ) / x - 1 = (toF64 r (x : ℝ) - x) / x by field_simp, abs_div, abs_of_pos hx,
          div_le_iff₀ hx]
        calc _ ≤ _ := hrel
          _ = _ := by ring
      have hpos : 0 < toF64 r (x : ℝ) / x := by positivity
      obtain ⟨q1, q2⟩ := abs_le.mp hq
      rw [← Real.logb_div hy.ne' hx.ne', Real.logb, abs_div, abs_of_pos (by linarith : 0 < Real.log 2),
        div_le_iff₀ (by linarith)]
      have u := Real.log_le_sub_one_of_pos hpos
      have w := Real.one_sub_inv_le_log_of_pos hpos
      have hz : (1 / 2 : ℝ) ≤ toF64 r (x : ℝ) / x := by
        have : (1 : ℝ) / 2 ^ 53 ≤ 1 / 2 := by norm_num
        linarith
      have w2 : -(2 * (1 / 2 ^ 53)) ≤ 1 - (toF64 r (x : ℝ) / x)⁻¹ := by
        have : (toF64 r (x : ℝ) / x)⁻¹ - 1 ≤ 2 * (1 / 2 ^ 53) := by
          rw [inv_eq_one_div, div_sub_one hpos.ne', div_le_iff₀ hpos]
          nlinarith
        linarith
      rw [abs_le]
      have t1 : (1 : ℝ) / 2 ^ 53 ≤ 1 / 2 ^ 51 * (1 / 2) := by norm_num
      have t2 : 2 * ((1 : ℝ) / 2 ^ 53) ≤ 1 / 2 ^ 51 * (1 / 2) := by norm_num
      have t3 : (1 : ℝ) / 2 ^ 51 * (1 / 2) ≤ 1 / 2 ^ 51 * Real.log 2 := mul_le_mul_of_nonneg_left l1.le (by positivity)
      constructor <;> linarith
    -- rounding of the logarithm
    have e2 : |f64Log2 r x - Real.logb 2 (toF64 r (x : ℝ))| ≤ 1 / 2 ^ 47 := by
      unfold f64Log2
      have z0 : 0 ≤ Real.logb 2 (toF64 r (x : ℝ)) := Real.logb_nonneg (by norm_num) y1
      rcases z0.lt_or_eq with zp | z0
      · have := toF64_err h zp
        have hl : Int.log 2 (Real.logb 2 (toF64 r (x : ℝ))) ≤ 6 := by
          have h3 := Int.log_mono_right (b := 2) zp (lhi x h2)
          have : Int.log 2 (64 : ℝ) = 6 := by
            have := Int.log_zpow (R := ℝ) (b := 2) (by norm_num) 6
            rwa [show (((2 : ℕ) : ℝ) ^ (6 : ℤ)) = 64 by norm_num] at this
          rwa [this] at h3
        calc _ ≤ _ := this
          _ ≤ (2 : ℝ) ^ (-47 : ℤ) := zpow_le_zpow_right₀ (by norm_num) (by omega)
          _ = _ := by norm_num
      · rw [← z0]
        have : toF64 r 0 = 0 := by unfold toF64; simp
        rw [this]; norm_num
    have t : (1 : ℝ) / 2 ^ 47 + 1 / 2 ^ 51 ≤ 1 / 2 ^ 46 := by norm_num
    calc |f64Log2 r x - Real.logb 2 x| ≤ |f64Log2 r x - Real.logb 2 (toF64 r (x : ℝ))| +
          |Real.logb 2 (toF64 r (x : ℝ)) - Real.logb 2 x| := abs_sub_le _ _ _
      _ ≤ 1 / 2 ^ 46 := by linarith

end

/-! ## Ceilings -/

variable {lg : ℕ → ℝ}

theorem log2Ceil_bounds {n : ℕ} (hn : 2 ≤ n) : 2 ^ (log2Ceil n - 1) < n ∧ n ≤ 2 ^ log2Ceil n ∧ 1 ≤ log2Ceil n := by
  unfold log2Ceil
  rw [if_neg (by omega)]
  have h1 : 2 ^ (n - 1).log2 ≤ n - 1 := (Nat.le_log2 (by omega)).mp (Nat.le_refl _)
  have h2 := Nat.lt_log2_self (n := n - 1)
  refine ⟨?_, ?_, ?_⟩
  · rw [Nat.add_sub_cancel]; omega
  · omega
  · omega

theorem ceil_exact (h : FloatLog lg) {n : ℕ} (h1 : 1 ≤ n) (h2 : n ≤ 2 ^ 45) : ⌈lg n⌉₊ = log2Ceil n := by
  rcases Nat.eq_or_lt_of_le h1 with rfl | hn
  · have := h.exact 0 (by omega)
    rw [show (2 : ℕ) ^ 0 = 1 by rfl] at this
    rw [this]; simp [log2Ceil]
  · obtain ⟨b1, b2, b3⟩ := log2Ceil_bounds hn
    obtain ⟨l1, l2⟩ := log_two_bounds
    have hK : log2Ceil n ≤ 45 := by
      have : 2 ^ (log2Ceil n - 1) < 2 ^ 45 := by omega
      have := (Nat.pow_lt_pow_iff_right (a := 2) (by omega)).mp this
      omega
    generalize hK' : log2Ceil n = K at *
    obtain ⟨e, rfl⟩ : ∃ e, K = e + 1 := ⟨K - 1, by omega⟩
    rw [Nat.add_sub_cancel] at b1
    rw [Nat.ceil_eq_iff (by omega), Nat.add_sub_cancel]
    have herr := abs_le.mp (h.err n h1 (by omega))
    have hx : (0 : ℝ) < n := by exact_mod_cast h1
    constructor
    · -- above the power of two below
      have hp : (0 : ℝ) < 2 ^ e := by positivity
      have c1 : (2 : ℝ) ^ e + 1 ≤ n := by exact_mod_cast b1
      have q : 0 < (n : ℝ) / 2 ^ e := by positivity
      have w := Real.one_sub_inv_le_log_of_pos q
      have e1 : Real.logb 2 n = e + Real.log (n / 2 ^ e) / Real.log 2 := by
        rw [Real.log_div hx.ne' hp.ne', Real.log_pow, Real.logb]
        field_simp; ring
      have e2 : (1 : ℝ) / 2 ^ 45 ≤ 1 - ((n : ℝ) / 2 ^ e)⁻¹ := by
        rw [inv_div]
        have hpe : (2 : ℝ) ^ e ≤ 2 ^ 44 := pow_le_pow_right₀ (by norm_num) (by omega)
        have : (2 : ℝ) ^ e / n ≤ 2 ^ e / (2 ^ e + 1) := div_le_div_of_nonneg_left hp.le (by positivity) c1
        have h3 : (2 : ℝ) ^ e / (2 ^ e + 1) ≤ 1 - 1 / 2 ^ 45 := by
          rw [div_le_iff₀ (by positivity)]
          have : (1 : ℝ) / 2 ^ 45 * (2 ^ e + 1) ≤ 1 := by
            calc (1 : ℝ) / 2 ^ 45 * (2 ^ e + 1) ≤ 1 / 2 ^ 45 * (2 ^ 44 + 1) :=
                  mul_le_mul_of_nonneg_left (by linarith) (by positivity)
              _ ≤ 1 := by norm_num
          linarith
        linarith
      have e3 : (1 : ℝ) / 2 ^ 45 ≤ Real.log (n / 2 ^ e) / Real.log 2 := by
        rw [le_div_iff₀ (by linarith)]
        have : (1 : ℝ) / 2 ^ 45 * Real.log 2 ≤ 1 / 2 ^ 45 * 1 := mul_le_mul_of_nonneg_left l2.le (by positivity)
        linarith
      have t : (1 : ℝ) / 2 ^ 46 < 1 / 2 ^ 45 := by norm_num
      linarith [herr.1]
    · rcases Nat.eq_or_lt_of_le b2 with he | hlt
      · rw [he, h.exact _ (by omega)]
      · have hp : (0 : ℝ) < 2 ^ (e + 1) := by positivity
        have c1 : (n : ℝ) ≤ 2 ^ (e + 1) - 1 := by
          have : (n : ℝ) + 1 ≤ 2 ^ (e + 1) := by exact_mod_cast hlt
          linarith
        have q : 0 < (n : ℝ) / 2 ^ (e + 1) := by positivity
        have u := Real.log_le_sub_one_of_pos q
        have e1 : Real.logb 2 n = ((e + 1 : ℕ) : ℝ) + Real.log (n / 2 ^ (e + 1)) / Real.log 2 := by
          rw [Real.log_div hx.ne' hp.ne', Real.log_pow, Real.logb]
          field_simp; ring
        have e2 : (n : ℝ) / 2 ^ (e + 1) - 1 ≤ -(1 / 2 ^ 45) := by
          have hpe : (2 : ℝ) ^ (e + 1) ≤ 2 ^ 45 := pow_le_pow_right₀ (by norm_num) (by omega)
          have : (n : ℝ) / 2 ^ (e + 1) ≤ (2 ^ (e + 1) - 1) / 2 ^ (e + 1) := div_le_div_of_nonneg_right c1 hp.le
          have h3 : ((2 : ℝ) ^ (e + 1) - 1) / 2 ^ (e + 1) = 1 - 1 / 2 ^ (e + 1) := by field_simp
          have h4 : (1 : ℝ) / 2 ^ 45 ≤ 1 / 2 ^ (e + 1) := one_div_le_one_div_of_le hp hpe
          linarith
        have e3 : Real.log (n / 2 ^ (e + 1)) / Real.log 2 ≤ -(1 / 2 ^ 45) := by
          rw [div_le_iff₀ (by linarith)]
          have : (1 : ℝ) / 2 ^ 45 * Real.log 2 ≤ 1 / 2 ^ 45 * 1 := mul_le_mul_of_nonneg_left l2.le (by positivity)
          linarith
        have t : (1 : ℝ) / 2 ^ 46 < 1 / 2 ^ 45 := by norm_num
        linarith [herr.2]

theorem logLike_float (h : FloatLog lg) : LogLike (fun x => ⌈lg x⌉₊) := by
  have hlog : ∀ x : ℕ, 2 ≤ x → (0 : ℝ) < x := fun x hx => by
    have : 0 < x := by omega
    exact_mod_cast this
  refine ⟨fun n h1 h2 => ?_, fun x hx => ?_, fun x h1 h2 => ?_, fun x h1 h2 => ?_, fun x h1 h2 => ?_⟩
  · by_cases hn : n + 2 ≤ 2 ^ 45
    · have m1 : max n 2 ≤ 2 ^ 45 := by omega
      rw [ceil_exact h (by omega) m1, ceil_exact h (by omega) hn]
      have := logLike_ceilLog2.step n h1 h2
      exact this
    · apply Nat.ceil_le_ceil
      by_cases hn2 : 2 ^ 45 ≤ n
      · rw [Nat.max_eq_left (by omega)]
        exact h.mono _ _ hn2 (by omega) (by omega)
      · -- up to `2^45`, the logarithm is at most 45, from there on at least 45
        have g1 := ceil_exact h (n := max n 2) (by omega) (by omega)
        have g2 : log2Ceil (max n 2) ≤ 45 := by
          obtain ⟨b1, -, -⟩ := log2Ceil_bounds (n := max n 2) (by omega)
          have : 2 ^ (log2Ceil (max n 2) - 1) < 2 ^ 45 := by omega
          have := (Nat.pow_lt_pow_iff_right (a := 2) (by omega)).mp this
          omega
        have g3 := h.mono (2 ^ 45) (n + 2) (by omega) (by omega) (by omega)
        rw [h.exact 45 (by omega)] at g3
        have g4 : lg (max n 2) ≤ 45 := by
          have := Nat.ceil_le.mp (le_of_eq_of_le g1 g2)
          exact_mod_cast this
        have : ((45 : ℕ) : ℝ) = 45 := by norm_num
        linarith
  · apply Nat.ceil_le.mpr
    have := h.le x hx
    exact_mod_cast this
  · apply Nat.one_le_ceil_iff.mpr
    have herr := abs_le.mp (h.err x (by omega) h2)
    have : (1 : ℝ) ≤ Real.logb 2 x := by
      rw [Real.le_logb_iff_rpow_le (by norm_num) (hlog x h1)]
      rw [Real.rpow_one]; exact_mod_cast h1
    have t : (1 : ℝ) / 2 ^ 46 < 1 := by norm_num
    linarith [herr.1]
  · have herr := abs_le.mp (h.err x (by omega) h2)
    have hc := Nat.le_ceil (lg x)
    have t : (1 : ℝ) / 2 ^ 46 < 1 := by norm_num
    have : Real.logb 2 x ≤ ((⌈lg x⌉₊ + 1 : ℕ) : ℝ) := by push_cast; linarith [herr.1]
    rw [Real.logb_le_iff_le_rpow (by norm_num) (hlog x h1), Real.rpow_natCast] at this
    exact_mod_cast this
  · have herr := abs_le.mp (h.err x (by omega) h2)
    have hnn : 0 ≤ lg x := by
      have : (1 : ℝ) ≤ Real.logb 2 x := by
        rw [Real.le_logb_iff_rpow_le (by norm_num) (hlog x h1)]
        rw [Real.rpow_one]; exact_mod_cast h1
      have t : (1 : ℝ) / 2 ^ 46 < 1 := by norm_num
      linarith [herr.1]
    have hc := Nat.ceil_lt_add_one hnn
    have t : (1 : ℝ) / 2 ^ 46 < 1 := by norm_num
    have : ((⌈lg x⌉₊ : ℕ) : ℝ) ≤ Real.logb 2 (4 * x) := by
      have hx := hlog x h1
      rw [Real.logb_mul (by norm_num) hx.ne', show (4 : ℝ) = 2 ^ (2 : ℝ) by norm_num,
        Real.logb_rpow (by norm_num) (by norm_num)]
      linarith [herr.2]
    rw [Real.le_logb_iff_rpow_le (by norm_num) (by have := hlog x h1; positivity), Real.rpow_natCast] at this
    exact_mod_cast this

/-- The floating point logarithm is never too large. -/
theorem ceil_le (h : FloatLog lg) {x k : ℕ} (h1 : 1 ≤ x) (h2 : x < 2 ^ 64) (hk : x ≤ 2 ^ k) : ⌈lg x⌉₊ ≤ k := by
  by_cases hx : x ≤ 2 ^ 45
  · rw [ceil_exact h h1 hx]
    rcases Nat.eq_or_lt_of_le h1 with rfl | h3
    · simp [log2Ceil]
    · obtain ⟨b1, _, _⟩ := log2Ceil_bounds h3
      have : 2 ^ (log2Ceil x - 1) < 2 ^ k := by omega
      have := (Nat.pow_lt_pow_iff_right (a := 2) (by omega)).mp this
      omega
  · apply Nat.ceil_le.mpr
    by_cases hk64 : k < 64
    · have := h.mono x (2 ^ k) (by omega) hk (Nat.pow_lt_pow_right (by omega) hk64)
      rwa [h.exact k (by omega)] at this
    · have := h.le x h2
      have h3 : (64 : ℝ) ≤ k := by
        have : 64 ≤ k := by omega
        exact_mod_cast this
      linarith

/-- If the floating point logarithm is too small, the number is just above a power of two. -/
theorem le_ceil (h : FloatLog lg) {x k : ℕ} (h1 : 1 ≤ x) (h2 : x < 2 ^ 64) (hk : ⌈lg x⌉₊ ≤ k) :
    x * 2 ^ 46 ≤ 2 ^ k * (2 ^ 46 + 1) := by
  have hx : (0 : ℝ) < x := by exact_mod_cast h1
  have herr := abs_le.mp (h.err x h1 h2)
  have hc := Nat.ceil_le.mp hk
  have h3 : Real.logb 2 x ≤ k + 1 / 2 ^ 46 := by linarith [herr.1]
  rw [Real.logb_le_iff_le_rpow (by norm_num) hx, Real.rpow_add (by norm_num), Real.rpow_natCast] at h3
  have h4 : (2 : ℝ) ^ ((1 : ℝ) / 2 ^ 46) ≤ 1 + 1 / 2 ^ 46 := by
    have p0 : (0 : ℝ) ≤ 1 / 2 ^ 46 := by norm_num
    have p1 : (1 : ℝ) / 2 ^ 46 ≤ 1 := by norm_num
    generalize (1 : ℝ) / 2 ^ 46 = p at *
    have := rpow_one_add_le_one_add_mul_self (s := 1) (p := p) (by norm_num) p0 p1
    rwa [one_add_one_eq_two, mul_one] at this
  have h5 : (x : ℝ) ≤ 2 ^ k * (1 + 1 / 2 ^ 46) := le_trans h3 (mul_le_mul_of_nonneg_left h4 (by positivity))
  have h6 : (x : ℝ) * 2 ^ 46 ≤ 2 ^ k * (2 ^ 46 + 1) := by
    calc (x : ℝ) * 2 ^ 46 ≤ 2 ^ k * (1 + 1 / 2 ^ 46) * 2 ^ 46 := mul_le_mul_of_nonneg_right h5 (by positivity)
      _ = _ := by ring
  exact_mod_cast h6

end Vers
