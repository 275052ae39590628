import Verif.Proofs.Float
import Verif.Props.BpSearch
import Verif.Props.Space

/-! # Floating point arithmetic in the size computations (C67)

`f64Ceil r` is the expression `(x as f64).log2().ceil() as usize` in 64-bit floating point arithmetic; the ways to
break ties are covered by the quantifier over `r`. The theorems about a `FloatLog` allow for logarithms that are
not rounded correctly. -/

namespace Vers

open Spec

variable [Profile]

/-- `(x as f64).log2().ceil() as usize`. -/
noncomputable def f64Ceil (r : ℝ → ℤ) (x : ℕ) : ℕ := ⌈f64Log2 r x⌉₊

omit [Profile] in
/-- C67. Correct rounding satisfies the requirements, for every way to break ties. -/
theorem C67_f64 {r : ℝ → ℤ} (h : Rounding r) : FloatLog (f64Log2 r) := floatLog_f64 h

omit [Profile] in
/-- Rounding with ties away from minus infinity is a `Rounding`. -/
theorem rounding_round : Rounding (round : ℝ → ℤ) where
  mono := fun a b h => by
    rw [round_eq, round_eq]
    exact Int.floor_le_floor (by linarith)
  near := fun x => abs_sub_round x

example : ∃ r, Rounding r := ⟨_, rounding_round⟩

omit [Profile] in
/-- C67. For every positive integer up to `2^45`, the result is the least `k` with `x ≤ 2^k`. -/
theorem C67_exact {lg : ℕ → ℝ} (h : FloatLog lg) {x : ℕ} (h1 : 1 ≤ x) (h2 : x ≤ 2 ^ 45) :
    x ≤ 2 ^ ⌈lg x⌉₊ ∧ ∀ k, x ≤ 2 ^ k → ⌈lg x⌉₊ ≤ k := by
  rw [ceil_exact h h1 h2]
  rcases Nat.eq_or_lt_of_le h1 with rfl | hx
  · simp [log2Ceil]
  · obtain ⟨b1, b2, b3⟩ := log2Ceil_bounds hx
    refine ⟨b2, fun k hk => ?_⟩
    have : 2 ^ (log2Ceil x - 1) < 2 ^ k := by omega
    have := (Nat.pow_lt_pow_iff_right (a := 2) (by omega)).mp this
    omega

omit [Profile] in
/-- C67. For all other 64-bit integers the error is at most one. -/
theorem C67_close {lg : ℕ → ℝ} (h : FloatLog lg) {x : ℕ} (h1 : 2 ≤ x) (h2 : x < 2 ^ 64) :
    x ≤ 2 ^ (⌈lg x⌉₊ + 1) ∧ 2 ^ ⌈lg x⌉₊ ≤ 4 * x ∧ ⌈lg x⌉₊ ≤ 64 :=
  ⟨(logLike_float h).lower x h1 h2, (logLike_float h).upper x h1 h2, (logLike_float h).le x h2⟩

example := C67_close (C67_f64 rounding_round) (x := 1000000) (by norm_num) (by norm_num)

omit [Profile] in
/-- C67. The logarithm meets what all theorems about Elias-Fano require. -/
theorem C67_log_like {lg : ℕ → ℝ} (h : FloatLog lg) : LogLike (fun x => ⌈lg x⌉₊) := logLike_float h

/-- C67. An Elias-Fano vector whose parameters are computed in floating point arithmetic stores every sorted
sequence. -/
theorem C67_elias_fano {r : ℝ → ℤ} (h : Rounding r) {data : List Word} (hs : Sorted data)
    (hl : data.length < 2 ^ 60) :
    ∃ ef, EF.fromSlice (f64Ceil r) data = .ok ef ∧ ef.len = data.length ∧ ∀ i, ef.get i = .ok data[i]? :=
  C21_get (C67_log_like (C67_f64 h)) hs hl

example := C67_elias_fano rounding_round (data := [3#64, 41#64]) (by simp [Sorted]) (by decide)

/-- C67. A tree of up to `2^45` blocks whose size is computed in floating point arithmetic is the one whose size
is computed exactly, so all theorems about trees apply to it. -/
theorem C67_bp_tree {lg : ℕ → ℝ} (h : FloatLog lg) {bs : Nat} {v : BV} (hl : v.len ≤ bs * 2 ^ 45) :
    BpTree.fromBitVector bs v (fun x => ⌈lg x⌉₊) = BpTree.fromBitVector bs v := by
  unfold BpTree.fromBitVector MMT.excessTree
  by_cases he : v.isEmpty
  · rw [if_pos he, if_pos he]
  · rw [if_neg he, if_neg he]
    have hp : 0 < v.len := by
      unfold BV.isEmpty at he
      simp at he; omega
    have hb : 0 < bs := by
      rcases Nat.eq_zero_or_pos bs with rfl | hb
      · omega
      · exact hb
    have e : divCeilR v.len bs = .ok ((v.len + bs - 1) / bs) := by
      unfold divCeilR; rw [if_neg (by omega)]
    have n1 : 1 ≤ (v.len + bs - 1) / bs := (Nat.le_div_iff_mul_le hb).mpr (by omega)
    have n2 : (v.len + bs - 1) / bs ≤ 2 ^ 45 := by
      apply Nat.le_of_lt_succ
      rw [Nat.div_lt_iff_lt_mul hb, Nat.succ_mul, Nat.mul_comm (2 ^ 45)]
      omega
    have c := ceil_exact h n1 n2
    simp only [e, ok_bind, c]

/-- The default block size of the tree, src/trees/bp/mod.rs:14, allows for `2^54` parentheses. -/
example : (2 : Nat) ^ 54 ≤ 512 * 2 ^ 45 := by norm_num

omit [Profile] in
theorem log2Ceil_eq : log2Ceil = ceilLog2 := rfl

/-- C67. If neither the number of elements nor their range exceeds `2^45`, the Elias-Fano vector is the one that exact
arithmetic gives. -/
theorem C67_elias_fano_exact {lg : ℕ → ℝ} (h : FloatLog lg) {data : List Word} (hs : Sorted data)
    {a z : Word} (ha : data.head? = some a) (hz : data.getLast? = some z) (h1 : data.length + 2 ≤ 2 ^ 45)
    (h2 : z.toNat - a.toNat ≤ 2 ^ 45) :
    EF.fromSlice (fun x => ⌈lg x⌉₊) data = EF.fromSlice ceilLog2 data := by
  have hne : data ≠ [] := by rintro rfl; cases ha
  have hn : 0 < data.length := List.length_pos_iff.mpr hne
  have e0 : idx data 0 = .ok a := idx_of_some (by rw [← List.head?_eq_getElem?]; exact ha)
  have e1 : idx data (data.length - 1) = .ok z := idx_of_some (by rw [← List.getLast?_eq_getElem?]; exact hz)
  unfold EF.fromSlice EF.fromNonEmpty
  rw [if_neg hne, if_neg hne, dassertR_true ((windowsSorted_iff _).mpr hs), ok_bind, ok_bind, e0, ok_bind, ok_bind, e1,
    ok_bind, ok_bind]
  have haz : a ≤ z := by
    rw [List.head?_eq_getElem?] at ha
    rw [List.getLast?_eq_getElem?] at hz
    obtain ⟨p1, p2⟩ := List.getElem?_eq_some_iff.mp ha
    obtain ⟨q1, q2⟩ := List.getElem?_eq_some_iff.mp hz
    rcases Nat.eq_zero_or_pos (data.length - 1) with h0 | h0
    · have : a = z := by rw [← p2, ← q2]; simp only [h0]
      rw [this]; exact BitVec.le_refl _
    · have := List.pairwise_iff_getElem.mp hs 0 (data.length - 1) p1 q1 h0
      rwa [p2, q2] at this
  have e2 : ∃ b, subW z a = .ok b ∧ b.toNat = z.toNat - a.toNat := by
    exact subW_of_le (BitVec.le_def.mp haz)
  obtain ⟨b, b1, b2⟩ := e2
  rw [b1, ok_bind, ok_bind]
  have c : ∀ n, 1 ≤ n → n ≤ 2 ^ 45 → ⌈lg n⌉₊ = ceilLog2 n := fun n g1 g2 => by
    rw [ceil_exact h g1 g2, log2Ceil_eq]
  have m1 : Nat.max data.length 2 = max data.length 2 := rfl
  have m2 : Nat.max b.toNat 2 = max b.toNat 2 := rfl
  have g1 := c (Nat.max b.toNat 2) (by omega) (by omega)
  have g2 := c (Nat.max data.length 2) (by omega) (by omega)
  have g3 := c (data.length + 2) (by omega) (by omega)
  simp only [g1, g2, g3]

/-- C56 in floating point arithmetic: the bound of `C56_space_partial` holds for up to `2^44` elements of any range. -/
theorem C56_space_float_partial {lg : ℕ → ℝ} (h : FloatLog lg) {data : List Word} (hs : Sorted data)
    (hl : data.length ≤ 2 ^ 44) {a z : Word} (ha : data.head? = some a) (hz : data.getLast? = some z) {k : Nat}
    (h1 : max data.length 2 ≤ 2 ^ k) (h2 : 2 ^ k < max (z.toNat - a.toNat) (data.length + 2)) :
    ∃ ef w, EF.fromSlice (fun x => ⌈lg x⌉₊) data = .ok ef ∧
      data.length * 2 ^ w < 2 * max (z.toNat - a.toNat) (data.length + 2) ∧
      8 * ef.heapSize ≤ data.length * w + 3 * data.length + 28 * ((3 * data.length + 514) / 512) + 445 := by
  have hf := logLike_float h
  have hne : data ≠ [] := by rintro rfl; cases ha
  have hn : 0 < data.length := List.length_pos_iff.mpr hne
  have hzlt := z.isLt
  obtain ⟨ef, e1, _⟩ := fromSlice_inv hf hs hne (by omega)
  obtain ⟨w, u, w1, w2, w3, u1, u2, u3, l1, _⟩ := fromSlice_parts hf hne e1 hs (by omega)
  rw [efD_last ha hz] at w1 u2
  have hn2 : Nat.max data.length 2 = max data.length 2 := rfl
  have hu2 : Nat.max (z.toNat - a.toNat) 2 = max (z.toNat - a.toNat) 2 := rfl
  rw [hn2, hu2] at w1
  have hlt : z.toNat - a.toNat < 2 ^ 64 := by omega
  generalize hU : z.toNat - a.toNat = U at *
  generalize hM : max U (data.length + 2) = M at *
  generalize hN : max data.length 2 = N at *
  have cN : ⌈lg N⌉₊ = ceilLog2 N := by rw [ceil_exact h (by omega) (by omega), log2Ceil_eq]
  simp only [cN] at w1
  have hmx : ∀ p q : Nat, Nat.max p q = max p q := fun _ _ => rfl
  rw [hmx] at w1
  have p1 := ceilLog2_le N
  have p2 := ceilLog2_lt (n := N) (by omega)
  have p3 := ceilLog2_le M
  have p4 := ceilLog2_lt (n := M) (by omega)
  have c1 : ceilLog2 N ≤ k := ceilLog2_le_of h1
  -- the exponent
  have a1 := ceil_le h (x := max U 2) (k := ceilLog2 M) (by omega) (by omega) (by omega)
  have a2 := ceil_le h (x := data.length + 2) (k := ceilLog2 M) (by omega) (by omega) (by omega)
  have hW : w + ceilLog2 N ≤ ceilLog2 M := by omega
  have hw1 : 1 ≤ w := by
    by_cases hM45 : M ≤ 2 ^ 45
    · have c2 : k < ceilLog2 M := lt_ceilLog2_of h2
      have g1 : ⌈lg (max U 2)⌉₊ = ceilLog2 (max U 2) := by rw [ceil_exact h (by omega) (by omega), log2Ceil_eq]
      have g2 : ⌈lg (data.length + 2)⌉₊ = ceilLog2 (data.length + 2) := by
        rw [ceil_exact h (by omega) (by omega), log2Ceil_eq]
      have g3 := max_ceilLog2 (max U 2) (data.length + 2)
      rw [hmx, hmx, show max (max U 2) (data.length + 2) = M by omega] at g3
      rw [g1, g2] at w1
      omega
    · have hNc : ceilLog2 N ≤ 44 := ceilLog2_le_of (by omega)
      have g1 := h.mono (2 ^ 45) (max U 2) (by omega) (by omega) (by omega)
      rw [h.exact 45 (by omega)] at g1
      have g2 := Nat.ceil_le_ceil g1
      rw [Nat.ceil_natCast] at g2
      omega
  have hp : 2 ^ (w + ceilLog2 N) = 2 ^ ceilLog2 N * 2 ^ w := by rw [Nat.pow_add, Nat.mul_comm]
  have hp2 : 2 ^ (w + ceilLog2 N) ≤ 2 ^ ceilLog2 M := Nat.pow_le_pow_right (by omega) hW
  have hq : 0 < 2 ^ w := Nat.pos_of_ne_zero (by simp)
  refine ⟨ef, w, e1, ?_, ?_⟩
  · have : data.length * 2 ^ w ≤ 2 ^ ceilLog2 N * 2 ^ w := Nat.mul_le_mul_right _ (by omega)
    omega
  · obtain ⟨l2, l3⟩ := l1 hw1
    have hlo := (C55_bit_vec l2).2
    have hup := heapSize_le u1 u3
    have hdiv : U / 2 ^ w ≤ 2 ^ ceilLog2 N := by
      have g := le_ceil h (x := max U 2) (k := w + ceilLog2 N) (by omega) (by omega) (by omega)
      have hNc : 2 ^ ceilLog2 N ≤ 2 ^ 44 := Nat.pow_le_pow_right (by omega) (ceilLog2_le_of (by omega))
      rw [hp] at g
      have g2 : U * 2 ^ 46 ≤ 2 ^ ceilLog2 N * 2 ^ w * (2 ^ 46 + 1) :=
        Nat.le_trans (Nat.mul_le_mul_right _ (by omega)) g
      apply Nat.le_of_lt_succ
      rw [Nat.div_lt_iff_lt_mul hq, Nat.succ_mul]
      have g3 : 2 ^ ceilLog2 N * 2 ^ w ≤ 2 ^ 44 * 2 ^ w := Nat.mul_le_mul_right _ hNc
      generalize 2 ^ ceilLog2 N * 2 ^ w = t at *
      generalize 2 ^ w = y at *
      omega
    rw [l3] at hlo
    have hu : u.len ≤ 3 * data.length + 3 := by rw [u2]; omega
    have hl : (u.len + 511) / 512 ≤ (3 * data.length + 514) / 512 := Nat.div_le_div_right (by omega)
    unfold EF.heapSize
    generalize data.length * w = nw at *
    omega

example := C56_space_float_partial (C67_f64 rounding_round) (data := [3#64, 41#64]) (by simp [Sorted]) (by decide) (a := 3#64)
  (z := 41#64) rfl rfl (k := 1) (by decide) (by decide)

/-- C56, deviation: the defect of dense sequences is present in floating point arithmetic. -/
theorem C56_dense_float_defect {lg : ℕ → ℝ} (h : FloatLog lg) {data : List Word} (hs : Sorted data) {a z : Word}
    (ha : data.head? = some a) (hz : data.getLast? = some z) {k : Nat} (hk : 1 ≤ k) (hk2 : k ≤ 44)
    (h1 : 2 ^ k < data.length) (h2 : data.length + 2 ≤ 2 ^ (k + 1)) (h3 : z.toNat - a.toNat ≤ 2 ^ (k + 1)) :
    ∃ ef, EF.fromSlice (fun x => ⌈lg x⌉₊) data = .ok ef ∧ 8 * data.length < ef.heapSize := by
  have hp : 2 ^ (k + 1) ≤ 2 ^ 45 := Nat.pow_le_pow_right (by omega) (by omega)
  rw [C67_elias_fano_exact h hs ha hz (by omega) (by omega)]
  exact C56_dense_defect hs (by omega) ha hz hk h1 h2 h3

example : FloatLog (f64Log2 round) := C67_f64 rounding_round

end Vers
