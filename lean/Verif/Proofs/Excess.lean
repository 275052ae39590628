import Verif.Proofs.Base
import Verif.SpecTree
import Verif.Model.Mmt

set_option linter.unusedSimpArgs false

/-! # Prefix excesses: first hit, minimum, maximum -/

namespace Vers

variable [Profile]
open Spec

omit [Profile] in
@[simp] theorem excess_nil : excess [] = 0 := rfl

omit [Profile] in
theorem excess_cons (x : Bool) (l : List Bool) : excess (x :: l) = sgn x + excess l := by
  unfold excess sgn
  cases x <;> simp <;> omega

omit [Profile] in
theorem excess_append (a b : List Bool) : excess (a ++ b) = excess a + excess b := by
  unfold excess
  rw [List.count_append, List.count_append]; omega

omit [Profile] in
theorem excess_reverse (a : List Bool) : excess a.reverse = excess a := by
  unfold excess
  rw [List.count_reverse, List.count_reverse]

omit [Profile] in
theorem excess_singleton (x : Bool) : excess [x] = sgn x := by cases x <;> rfl

omit [Profile] in
theorem sgn_cases (x : Bool) : sgn x = 1 ∨ sgn x = -1 := by cases x <;> simp [sgn]

omit [Profile] in
theorem excess_natAbs_le (l : List Bool) : (excess l).natAbs ≤ l.length := by
  induction l with
  | nil => simp
  | cons x l ih => rw [excess_cons, List.length_cons]; have := sgn_cases x; omega

/-- Index of the first non-empty prefix with excess `r`. -/
def firstExc : List Bool → Int → Option Nat
  | [], _ => none
  | x :: l, r => if r - sgn x = 0 then some 0 else (firstExc l (r - sgn x)).map (· + 1)

omit [Profile] in
theorem firstExc_append (a b : List Bool) (r : Int) :
    firstExc (a ++ b) r = (firstExc a r).or ((firstExc b (r - excess a)).map (· + a.length)) := by
  induction a generalizing r with
  | nil => simp [firstExc]
  | cons x l ih =>
    simp only [List.cons_append, firstExc]
    split
    · simp
    · rw [ih, excess_cons, show r - sgn x - excess l = r - (sgn x + excess l) by omega]
      cases firstExc l (r - sgn x) with
      | some m => simp
      | none =>
        simp only [Option.none_or, Option.map_none, Option.map_map]
        congr 1

omit [Profile] in
theorem firstExc_append_none {a : List Bool} {r : Int} (h : firstExc a r = none) (b : List Bool) :
    firstExc (a ++ b) r = (firstExc b (r - excess a)).map (· + a.length) := by
  rw [firstExc_append, h]; rfl

omit [Profile] in
theorem firstExc_append_some {a : List Bool} {r : Int} {m : Nat} (h : firstExc a r = some m)
    (b : List Bool) : firstExc (a ++ b) r = some m := by
  rw [firstExc_append, h]; rfl

omit [Profile] in
theorem firstExc_lt {l : List Bool} {r : Int} {m : Nat} (h : firstExc l r = some m) : m < l.length := by
  induction l generalizing r m with
  | nil => simp [firstExc] at h
  | cons x l ih =>
    simp only [firstExc] at h
    split at h
    · cases h; simp
    · obtain ⟨k, hk, rfl⟩ := Option.map_eq_some_iff.mp h
      have := ih hk
      simp; omega

omit [Profile] in
theorem firstExc_none {l : List Bool} {r : Int} :
    firstExc l r = none ↔ ∀ m, m < l.length → excess (l.take (m + 1)) ≠ r := by
  induction l generalizing r with
  | nil => simp [firstExc]
  | cons x l ih =>
    simp only [firstExc]
    constructor
    · intro h m hm
      split at h
      · cases h
      · rw [Option.map_eq_none_iff, ih] at h
        rw [List.take_succ_cons, excess_cons]
        cases m with
        | zero => simp; omega
        | succ m => have := h m (by simpa using hm); omega
    · intro h
      have h0 := h 0 (by simp)
      simp only [Nat.zero_add, List.take_succ_cons, List.take_zero, excess_cons, excess_nil] at h0
      rw [if_neg (by omega), Option.map_eq_none_iff, ih]
      intro m hm
      have := h (m + 1) (by simpa using hm)
      rw [List.take_succ_cons, excess_cons] at this
      omega

omit [Profile] in
theorem firstExc_some {l : List Bool} {r : Int} {m : Nat} :
    firstExc l r = some m ↔
      m < l.length ∧ excess (l.take (m + 1)) = r ∧ ∀ m', m' < m → excess (l.take (m' + 1)) ≠ r := by
  induction l generalizing r m with
  | nil => simp [firstExc]
  | cons x l ih =>
    simp only [firstExc]
    constructor
    · intro h
      split at h
      · cases h
        refine ⟨by simp, ?_, by omega⟩
        simp [excess_cons]; omega
      · obtain ⟨k, hk, rfl⟩ := Option.map_eq_some_iff.mp h
        obtain ⟨h1, h2, h3⟩ := ih.mp hk
        refine ⟨by simpa using h1, ?_, ?_⟩
        · rw [List.take_succ_cons, excess_cons]; omega
        · intro m' hm'
          rw [List.take_succ_cons, excess_cons]
          cases m' with
          | zero => simp; omega
          | succ m' => have := h3 m' (by omega); omega
    · intro ⟨h1, h2, h3⟩
      rw [List.take_succ_cons, excess_cons] at h2
      cases m with
      | zero => simp at h2; rw [if_pos (by omega)]
      | succ m =>
        have h0 := h3 0 (by omega)
        simp only [Nat.zero_add, List.take_succ_cons, List.take_zero, excess_cons, excess_nil] at h0
        rw [if_neg (by omega), ih.mpr ⟨by simpa using h1, by omega, ?_⟩]
        · rfl
        · intro m' hm'
          have := h3 (m' + 1) (by omega)
          rw [List.take_succ_cons, excess_cons] at this
          omega

/-- Minimum over the non-empty prefixes, 0 if there are none. -/
def minPre : List Bool → Int
  | [] => 0
  | x :: l => sgn x + min 0 (minPre l)

/-- Maximum over the non-empty prefixes, 0 if there are none. -/
def maxPre : List Bool → Int
  | [] => 0
  | x :: l => sgn x + max 0 (maxPre l)

/-- The node that describes a section of the sequence. -/
def segNode (l : List Bool) : ExcessNode := ⟨excess l, minPre l, maxPre l⟩

omit [Profile] in
theorem segNode_nil : segNode [] = ExcessNode.default := rfl

omit [Profile] in
theorem minPre_le_one (l : List Bool) : minPre l ≤ 1 := by
  cases l with
  | nil => simp [minPre]
  | cons x l => rw [minPre]; have := sgn_cases x; omega

omit [Profile] in
theorem neg_one_le_maxPre (l : List Bool) : -1 ≤ maxPre l := by
  cases l with
  | nil => simp [maxPre]
  | cons x l => rw [maxPre]; have := sgn_cases x; omega

omit [Profile] in
theorem minPre_le_excess (l : List Bool) : minPre l ≤ excess l := by
  induction l with
  | nil => simp [minPre]
  | cons x l ih => rw [minPre, excess_cons]; omega

omit [Profile] in
theorem excess_le_maxPre (l : List Bool) : excess l ≤ maxPre l := by
  induction l with
  | nil => simp [maxPre]
  | cons x l ih => rw [maxPre, excess_cons]; omega

omit [Profile] in
theorem minPre_append {a : List Bool} (ha : a ≠ []) (b : List Bool) :
    minPre (a ++ b) = min (minPre a) (excess a + minPre b) := by
  induction a with
  | nil => exact absurd rfl ha
  | cons x l ih =>
    simp only [List.cons_append, minPre, excess_cons]
    by_cases hl : l = []
    · subst hl; simp [minPre]; omega
    · rw [ih hl]; omega

omit [Profile] in
theorem maxPre_append {a : List Bool} (ha : a ≠ []) (b : List Bool) :
    maxPre (a ++ b) = max (maxPre a) (excess a + maxPre b) := by
  induction a with
  | nil => exact absurd rfl ha
  | cons x l ih =>
    simp only [List.cons_append, maxPre, excess_cons]
    by_cases hl : l = []
    · subst hl; simp [maxPre]; omega
    · rw [ih hl]; omega

omit [Profile] in
theorem minPre_natAbs_le (l : List Bool) : (minPre l).natAbs ≤ l.length := by
  induction l with
  | nil => simp [minPre]
  | cons x l ih => rw [minPre, List.length_cons]; have := sgn_cases x; omega

omit [Profile] in
theorem maxPre_natAbs_le (l : List Bool) : (maxPre l).natAbs ≤ l.length := by
  induction l with
  | nil => simp [maxPre]
  | cons x l ih => rw [maxPre, List.length_cons]; have := sgn_cases x; omega

omit [Profile] in
/-- The prefix excesses take every value between the minimum and the maximum. -/
theorem firstExc_isSome {l : List Bool} (hl : l ≠ []) (r : Int) :
    (firstExc l r).isSome = true ↔ minPre l ≤ r ∧ r ≤ maxPre l := by
  induction l generalizing r with
  | nil => exact absurd rfl hl
  | cons x l ih =>
    simp only [firstExc, minPre, maxPre]
    by_cases h : r - sgn x = 0
    · rw [if_pos h]; simp; omega
    · rw [if_neg h, Option.isSome_map]
      by_cases hl' : l = []
      · subst hl'; simp [firstExc, minPre, maxPre]; omega
      · rw [ih hl' _]
        have h1 := minPre_le_one l
        have h2 := neg_one_le_maxPre l
        omega

omit [Profile] in
theorem firstExc_eq_none {l : List Bool} (hl : l ≠ []) (r : Int) :
    firstExc l r = none ↔ ¬(minPre l ≤ r ∧ r ≤ maxPre l) := by
  rw [← firstExc_isSome hl]; cases firstExc l r <;> simp

omit [Profile] in
theorem excess_take_add_drop (l : List Bool) (n : Nat) :
    excess (l.take n) + excess (l.drop n) = excess l := by
  rw [← excess_append, List.take_append_drop]

omit [Profile] in
/-- The criterion for a backward search. -/
theorem firstExc_reverse_isSome {l : List Bool} (hl : l ≠ []) {rel : Int} (hr : rel ≠ 0) :
    (firstExc l.reverse (-rel)).isSome = true ↔
      (rel + excess l = 0 ∨ (minPre l ≤ rel + excess l ∧ rel + excess l ≤ maxPre l)) := by
  rw [← firstExc_isSome hl]
  have hn : ∀ (l : List Bool) (r : Int), (firstExc l r).isSome = true ↔
      ∃ m, m < l.length ∧ excess (l.take (m + 1)) = r := by
    intro l r
    constructor
    · intro h
      obtain ⟨m, hm⟩ := Option.isSome_iff_exists.mp h
      obtain ⟨h1, h2, -⟩ := firstExc_some.mp hm
      exact ⟨m, h1, h2⟩
    · intro ⟨m, h1, h2⟩
      cases h : firstExc l r with
      | some _ => rfl
      | none => exact absurd h2 (firstExc_none.mp h m h1)
  rw [hn, hn]
  have hpos := List.length_pos_iff.mpr hl
  have key : ∀ m, m < l.length →
      excess (l.reverse.take (m + 1)) = excess l - excess (l.take (l.length - (m + 1))) := by
    intro m hm
    rw [List.take_reverse, excess_reverse]
    have := excess_take_add_drop l (l.length - (m + 1))
    omega
  constructor
  · intro ⟨m, h1, h2⟩
    rw [List.length_reverse] at h1
    rw [key m h1] at h2
    by_cases h0 : l.length - (m + 1) = 0
    · left; rw [h0] at h2; simp at h2; omega
    · right
      refine ⟨l.length - (m + 1) - 1, by omega, ?_⟩
      rw [show l.length - (m + 1) - 1 + 1 = l.length - (m + 1) by omega]
      omega
  · rintro (h | ⟨m, h1, h2⟩)
    · refine ⟨l.length - 1, by rw [List.length_reverse]; omega, ?_⟩
      rw [key _ (by omega), show l.length - (l.length - 1 + 1) = 0 by omega]
      simp; omega
    · by_cases hm : m + 1 = l.length
      · rw [hm, List.take_length] at h2; omega
      · refine ⟨l.length - (m + 1) - 1, by rw [List.length_reverse]; omega, ?_⟩
        rw [key _ (by omega), show l.length - (l.length - (m + 1) - 1 + 1) = m + 1 by omega]
        omega

/-! ## Sections of a sequence -/

/-- The positions `a, ..., c - 1`. -/
def sec (l : List Bool) (a c : Nat) : List Bool := (l.take c).drop a

omit [Profile] in
theorem length_sec (l : List Bool) (a c : Nat) : (sec l a c).length = min c l.length - a := by
  unfold sec; rw [List.length_drop, List.length_take]

omit [Profile] in
theorem sec_append (l : List Bool) {a m c : Nat} (h : a ≤ m) (h' : m ≤ c) :
    sec l a m ++ sec l m c = sec l a c := by
  unfold sec
  by_cases hm : m ≤ l.length
  · have : l.take c = l.take m ++ (l.take c).drop m := by
      conv => lhs; rw [← List.take_append_drop m (l.take c)]
      rw [List.take_take, Nat.min_eq_left h']
    conv => rhs; rw [this]
    rw [List.drop_append, List.length_take, Nat.min_eq_left hm, show a - m = 0 by omega]
    simp
  · rw [List.take_of_length_le (by omega : l.length ≤ m), List.take_of_length_le (by omega : l.length ≤ c)]
    rw [List.drop_of_length_le (by omega : l.length ≤ m)]; simp

omit [Profile] in
theorem sec_self (l : List Bool) (a : Nat) : sec l a a = [] := by
  apply List.eq_nil_of_length_eq_zero; rw [length_sec]; omega

omit [Profile] in
theorem sec_nil {l : List Bool} {a c : Nat} (h : min c l.length ≤ a) : sec l a c = [] := by
  apply List.eq_nil_of_length_eq_zero; rw [length_sec]; omega

omit [Profile] in
theorem sec_ne_nil {l : List Bool} {a c : Nat} (h : a < c) (h' : a < l.length) : sec l a c ≠ [] := by
  intro h0
  have := length_sec l a c
  rw [h0] at this; simp at this; omega

omit [Profile] in
theorem sec_succ {l : List Bool} {a c : Nat} {x : Bool} (h : a ≤ c) (hx : l[c]? = some x) :
    sec l a (c + 1) = sec l a c ++ [x] := by
  rw [← sec_append l h (Nat.le_succ c)]
  congr 1
  unfold sec
  rw [List.take_add_one, hx]
  have := (List.getElem?_eq_some_iff.mp hx).1
  rw [List.drop_append, List.length_take, Nat.min_eq_left (by omega), Nat.sub_self,
    List.drop_of_length_le (by rw [List.length_take]; omega)]
  rfl

omit [Profile] in
theorem sec_succ' {l : List Bool} {a c : Nat} {x : Bool} (h : a < c) (hx : l[a]? = some x) :
    sec l a c = x :: sec l (a + 1) c := by
  rw [← sec_append l (by omega : a ≤ a + 1) h, sec_succ (Nat.le_refl a) hx, sec_self]; rfl

omit [Profile] in
theorem sec_end {l : List Bool} {a c : Nat} (h : l.length ≤ c) : sec l a c = l.drop a := by
  unfold sec; rw [List.take_of_length_le h]

omit [Profile] in
theorem sec_zero (l : List Bool) (c : Nat) : sec l 0 c = l.take c := by
  unfold sec; simp

omit [Profile] in
theorem sec_clip (l : List Bool) (a c : Nat) : sec l a c = sec l a (min c l.length) := by
  unfold sec; rw [List.take_eq_take_min]

omit [Profile] in
theorem excessOf_eq (l : List Bool) (a c : Nat) : excessOf l a c = excess (sec l a c) := rfl

end Vers
