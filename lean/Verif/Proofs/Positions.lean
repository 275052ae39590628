import Verif.Proofs.BitVecOps2
import Verif.SpecIter

/-! # The list of positions of a bit, and lists consumed from both ends -/

set_option linter.unusedSimpArgs false

namespace Vers

variable [Profile]
open Spec

omit [Profile] in
theorem length_positionsFrom (b : Bool) (l : List Bool) (i : Nat) :
    (positionsFrom b i l).length = l.count b := by
  induction l generalizing i with
  | nil => rfl
  | cons x l ih =>
    unfold positionsFrom
    by_cases h : x = b
    · rw [if_pos h, List.length_cons, ih, h, List.count_cons_self]
    · rw [if_neg h, ih, List.count_cons_of_ne h]

omit [Profile] in
theorem length_positions (b : Bool) (l : List Bool) : (positions b l).length = l.count b :=
  length_positionsFrom b l 0

omit [Profile] in
theorem positionsFrom_getElem? (b : Bool) (l : List Bool) (i k p : Nat) (h1 : l[p]? = some b)
    (h2 : (l.take p).count b = k) : (positionsFrom b i l)[k]? = some (i + p) := by
  induction l generalizing i k p with
  | nil => simp at h1
  | cons x l ih =>
    unfold positionsFrom
    cases p with
    | zero =>
      simp at h1 h2
      subst h1 h2
      simp
    | succ p =>
      simp only [List.getElem?_cons_succ] at h1
      rw [List.take_succ_cons] at h2
      by_cases hx : x = b
      · rw [if_pos hx]
        rw [hx, List.count_cons_self] at h2
        obtain ⟨k', rfl⟩ : ∃ k', k = k' + 1 := ⟨k - 1, by omega⟩
        rw [List.getElem?_cons_succ, ih (i + 1) k' p h1 (by omega)]
        congr 1; omega
      · rw [if_neg hx]
        rw [List.count_cons_of_ne hx] at h2
        rw [ih (i + 1) k p h1 h2]
        congr 1; omega

omit [Profile] in
theorem positions_getElem? {b : Bool} {l : List Bool} {k p : Nat} (h : IsSelect b l k p) :
    (positions b l)[k]? = some p := by
  have := positionsFrom_getElem? b l 0 k p h.1 h.2
  simpa [positions] using this

/-! ## `(P.take m).drop n` as the remaining elements of an iterator -/

omit [Profile] in
theorem rem_head? {α : Type} (P : List α) {m n : Nat} :
    ((P.take m).drop n).head? = if n < m then P[n]? else none := by
  rw [List.head?_drop, List.getElem?_take]

omit [Profile] in
theorem rem_tail {α : Type} (P : List α) {m n : Nat} :
    ((P.take m).drop n).tail = (P.take m).drop (n + 1) := by simp

omit [Profile] in
theorem rem_getLast? {α : Type} (P : List α) {m n : Nat} (h : n ≤ m) (hm : m + 1 ≤ P.length) :
    ((P.take (m + 1)).drop n).getLast? = P[m]? := by
  rw [List.getLast?_drop, if_neg (by simp; omega), List.getLast?_eq_getElem?]
  rw [List.length_take, Nat.min_eq_left hm, List.getElem?_take, if_pos (by omega)]
  simp

omit [Profile] in
theorem rem_dropLast {α : Type} (P : List α) {m n : Nat} (h : n ≤ m) (hm : m + 1 ≤ P.length) :
    ((P.take (m + 1)).drop n).dropLast = (P.take m).drop n := by
  rw [List.dropLast_eq_take, List.length_drop, List.length_take, Nat.min_eq_left hm, List.take_drop,
    List.take_take]
  congr 2; omega

omit [Profile] in
theorem rem_length {α : Type} (P : List α) {m n : Nat} (hm : m ≤ P.length) :
    ((P.take m).drop n).length = m - n := by
  rw [List.length_drop, List.length_take, Nat.min_eq_left hm]

omit [Profile] in
theorem rem_getElem? {α : Type} (P : List α) {m n i : Nat} :
    ((P.take m).drop n)[i]? = if n + i < m then P[n + i]? else none := by
  rw [List.getElem?_drop, List.getElem?_take]

omit [Profile] in
theorem rem_drop {α : Type} (P : List α) {m n i : Nat} :
    ((P.take m).drop n).drop i = (P.take m).drop (n + i) := by
  rw [List.drop_drop]

omit [Profile] in
theorem rem_nil {α : Type} (P : List α) {m n : Nat} (h : m ≤ n) : (P.take m).drop n = [] := by
  apply List.drop_of_length_le; rw [List.length_take]; omega

omit [Profile] in
theorem positionsFrom_sorted (b : Bool) (l : List Bool) : ∀ i, (positionsFrom b i l).Pairwise (· < ·) ∧
    ∀ p, p ∈ positionsFrom b i l ↔ i ≤ p ∧ l[p - i]? = some b := by
  induction l with
  | nil => intro i; simp [positionsFrom]
  | cons x l ih =>
    intro i
    obtain ⟨h1, h2⟩ := ih (i + 1)
    have hm : ∀ p, i + 1 ≤ p → (x :: l)[p - i]? = l[p - (i + 1)]? := by
      intro p hp
      rw [show p - i = (p - (i + 1)) + 1 by omega, List.getElem?_cons_succ]
    unfold positionsFrom
    by_cases hx : x = b
    · rw [if_pos hx]
      refine ⟨List.pairwise_cons.mpr ⟨fun p hp => ?_, h1⟩, fun p => ?_⟩
      · have := (h2 p).mp hp; omega
      · rw [List.mem_cons, h2]
        constructor
        · rintro (rfl | ⟨g1, g2⟩)
          · simp [hx]
          · exact ⟨by omega, by rw [hm p g1]; exact g2⟩
        · rintro ⟨g1, g2⟩
          rcases Nat.eq_or_lt_of_le g1 with h3 | h3
          · exact Or.inl h3.symm
          · exact Or.inr ⟨h3, by rw [← hm p h3]; exact g2⟩
    · rw [if_neg hx]
      refine ⟨h1, fun p => ?_⟩
      rw [h2]
      constructor
      · rintro ⟨g1, g2⟩
        exact ⟨by omega, by rw [hm p g1]; exact g2⟩
      · rintro ⟨g1, g2⟩
        rcases Nat.eq_or_lt_of_le g1 with h3 | h3
        · subst h3; simp at g2; exact absurd g2 hx
        · exact ⟨h3, by rw [← hm p h3]; exact g2⟩

end Vers
