import Verif.Proofs.BpSearch
import Verif.SpecTree

set_option linter.unusedSimpArgs false

/-! # The searches in terms of the specification -/

namespace Vers

variable [Profile]
open Spec Lookup

omit [Profile] in
theorem take_drop_eq_sec (l : List Bool) (a n : Nat) : (l.drop a).take n = sec l a (a + n) := by
  unfold sec; rw [List.take_drop, Nat.add_comm]

omit [Profile] in
theorem fwdHit_iff {l : List Bool} {i : Nat} {r : Int} {j : Nat} :
    FwdHit l i r j ↔ ∃ m, j = i + 1 + m ∧ m < (l.drop (i + 1)).length ∧ excess ((l.drop (i + 1)).take (m + 1)) = r := by
  unfold FwdHit
  constructor
  · rintro ⟨h1, h2, h3⟩
    obtain ⟨m, rfl⟩ : ∃ m, j = i + 1 + m := ⟨j - (i + 1), by omega⟩
    refine ⟨m, rfl, by rw [List.length_drop]; omega, ?_⟩
    rw [take_drop_eq_sec]; exact h3
  · rintro ⟨m, rfl, h2, h3⟩
    rw [List.length_drop] at h2
    refine ⟨by omega, by omega, ?_⟩
    rw [take_drop_eq_sec] at h3; exact h3

omit [Profile] in
theorem isFwd_iff {l : List Bool} {i : Nat} {r : Int} {j : Nat} :
    (firstExc (l.drop (i + 1)) r).map (i + 1 + ·) = some j ↔ IsFwd l i r j := by
  rw [Option.map_eq_some_iff]
  constructor
  · rintro ⟨m, hm, rfl⟩
    obtain ⟨h1, h2, h3⟩ := firstExc_some.mp hm
    refine ⟨fwdHit_iff.mpr ⟨m, rfl, h1, h2⟩, ?_⟩
    intro j' hj'
    obtain ⟨m', rfl, h4, h5⟩ := fwdHit_iff.mp hj'
    apply Classical.byContradiction
    intro hc
    exact h3 m' (by omega) h5
  · rintro ⟨h1, h2⟩
    obtain ⟨m, rfl, h4, h5⟩ := fwdHit_iff.mp h1
    refine ⟨m, firstExc_some.mpr ⟨h4, h5, ?_⟩, rfl⟩
    intro m' hm' h6
    have := h2 (i + 1 + m') (fwdHit_iff.mpr ⟨m', rfl, by omega, h6⟩)
    omega

omit [Profile] in
theorem fwd_none_iff {l : List Bool} {i : Nat} {r : Int} :
    (firstExc (l.drop (i + 1)) r).map (i + 1 + ·) = none ↔ ∀ j, ¬FwdHit l i r j := by
  rw [Option.map_eq_none_iff, firstExc_none]
  constructor
  · intro h j hj
    obtain ⟨m, rfl, h4, h5⟩ := fwdHit_iff.mp hj
    exact h m h4 h5
  · intro h m hm h5
    exact h _ (fwdHit_iff.mpr ⟨m, rfl, hm, h5⟩)

omit [Profile] in
theorem take_reverse_eq_sec (l : List Bool) {i m : Nat} (hi : i ≤ l.length) (hm : m < i) :
    (l.take i).reverse.take (m + 1) = (sec l (i - 1 - m) i).reverse := by
  rw [List.take_reverse, sec, List.length_take, Nat.min_eq_left hi]
  congr 2; omega

omit [Profile] in
theorem bwdHit_iff {l : List Bool} {i : Nat} (hi : i < l.length) {r : Int} {j : Nat} :
    BwdHit l i r j ↔ ∃ m, m < i ∧ j = i - 1 - m ∧ excess ((l.take i).reverse.take (m + 1)) = -r := by
  unfold BwdHit
  constructor
  · rintro ⟨h1, h2, h3⟩
    refine ⟨i - 1 - j, by omega, by omega, ?_⟩
    rw [take_reverse_eq_sec l (by omega) (by omega), excess_reverse, show i - 1 - (i - 1 - j) = j by omega]
    exact h3
  · rintro ⟨m, h1, rfl, h3⟩
    refine ⟨by omega, hi, ?_⟩
    rw [take_reverse_eq_sec l (by omega) (by omega), excess_reverse] at h3
    exact h3

omit [Profile] in
theorem isBwd_iff {l : List Bool} {i : Nat} (hi : i < l.length) {r : Int} {j : Nat} :
    (firstExc (l.take i).reverse (-r)).map (i - 1 - ·) = some j ↔ IsBwd l i r j := by
  have hlen : (l.take i).reverse.length = i := by
    rw [List.length_reverse, List.length_take]; omega
  rw [Option.map_eq_some_iff]
  constructor
  · rintro ⟨m, hm, rfl⟩
    obtain ⟨h1, h2, h3⟩ := firstExc_some.mp hm
    rw [hlen] at h1
    refine ⟨(bwdHit_iff hi).mpr ⟨m, h1, rfl, h2⟩, ?_⟩
    intro j' hj'
    obtain ⟨m', h4, rfl, h5⟩ := (bwdHit_iff hi).mp hj'
    apply Classical.byContradiction
    intro hc
    exact h3 m' (by omega) h5
  · rintro ⟨h1, h2⟩
    obtain ⟨m, h4, rfl, h5⟩ := (bwdHit_iff hi).mp h1
    refine ⟨m, firstExc_some.mpr ⟨by omega, h5, ?_⟩, rfl⟩
    intro m' hm' h6
    have := h2 (i - 1 - m') ((bwdHit_iff hi).mpr ⟨m', by omega, rfl, h6⟩)
    omega

omit [Profile] in
theorem bwd_none_iff {l : List Bool} {i : Nat} (hi : i < l.length) {r : Int} :
    (firstExc (l.take i).reverse (-r)).map (i - 1 - ·) = none ↔ ∀ j, ¬BwdHit l i r j := by
  have hlen : (l.take i).reverse.length = i := by
    rw [List.length_reverse, List.length_take]; omega
  rw [Option.map_eq_none_iff, firstExc_none, hlen]
  constructor
  · intro h j hj
    obtain ⟨m, h4, rfl, h5⟩ := (bwdHit_iff hi).mp hj
    exact h m h4 h5
  · intro h m hm h5
    exact h _ ((bwdHit_iff hi).mpr ⟨m, hm, rfl, h5⟩)

namespace BpTree
variable {t : BpTree} {v : BV} {bs : Nat}

theorem fwdSearch_spec (h : Rep t bs v) (k : Variant) (i : Nat) {rel : Int} (hv : 0 < v.len)
    (hs : rel.natAbs + v.len ≤ 9223372036854775807) :
    ∃ o, t.fwdSearch bs k i rel = .ok o ∧ (∀ j, o = some j ↔ IsFwd v.bits i rel j) ∧
      (o = none ↔ ∀ j, ¬FwdHit v.bits i rel j) :=
  ⟨_, fwdSearch_eq h k i hv hs, fun _ => isFwd_iff, fwd_none_iff⟩

theorem bwdSearch_spec (h : Rep t bs v) {k : Variant} (hfit : BwdFits bs k) (i : Nat) {rel : Int}
    (hs : rel.natAbs + v.len ≤ 9223372036854775807) :
    ∃ o, t.bwdSearch bs k i rel = .ok o ∧ (∀ j, o = some j ↔ IsBwd v.bits i rel j) ∧
      (o = none ↔ ∀ j, ¬BwdHit v.bits i rel j) := by
  by_cases hi : i < v.len
  · have hi' : i < v.bits.length := by rw [BV.length_bits]; exact hi
    exact ⟨_, bwdSearch_eq h hfit hi hs, fun _ => isBwd_iff hi', bwd_none_iff hi'⟩
  · have hno : ∀ j, ¬BwdHit v.bits i rel j := by
      intro j hj
      have := hj.2.1
      rw [BV.length_bits] at this
      omega
    refine ⟨none, ?_, ?_, ?_⟩
    · unfold bwdSearch
      rw [h.vec.2.2, if_pos (by omega)]; rfl
    · intro j
      constructor
      · intro h; cases h
      · intro h; exact absurd h.1 (hno j)
    · exact ⟨fun _ => hno, fun _ => rfl⟩

end BpTree

omit [Profile] in
/-- Least block from `p` on in which relative excess `rel` (from `p`) is reached. -/
theorem firstExc_sec_some_iff (l : List Bool) (a c : Nat) (r : Int) :
    (firstExc (sec l a c) r).isSome = true ↔ ∃ m, a ≤ m ∧ m < c ∧ m < l.length ∧ excessOf l a (m + 1) = r := by
  rw [Option.isSome_iff_exists]
  constructor
  · rintro ⟨m, hm⟩
    obtain ⟨h1, h2, -⟩ := firstExc_some.mp hm
    rw [length_sec] at h1
    refine ⟨a + m, by omega, by omega, by omega, ?_⟩
    rw [excessOf_eq, ← h2]
    congr 1
    unfold sec
    rw [List.take_drop, List.take_take]
    congr 2; omega
  · rintro ⟨m, h1, h2, h3, h4⟩
    cases hf : firstExc (sec l a c) r with
    | some m => exact ⟨m, rfl⟩
    | none =>
      exfalso
      apply firstExc_none.mp hf (m - a) (by rw [length_sec]; omega)
      rw [← h4, excessOf_eq]
      congr 1
      unfold sec
      rw [List.take_drop, List.take_take]
      congr 2; omega

omit [Profile] in
theorem firstExc_rsec_some_iff (l : List Bool) {a c : Nat} (hc : c ≤ l.length) (r : Int) :
    (firstExc (sec l a c).reverse (-r)).isSome = true ↔ ∃ m, a ≤ m ∧ m < c ∧ excessOf l m c = -r := by
  have key : ∀ m, m < c - a → (sec l a c).reverse.take (m + 1) = (sec l (c - 1 - m) c).reverse := by
    intro m hm
    rw [List.take_reverse, length_sec]
    unfold sec
    rw [List.drop_drop]
    congr 2; omega
  have hlen : (sec l a c).reverse.length = c - a := by
    rw [List.length_reverse, length_sec]; omega
  rw [Option.isSome_iff_exists]
  constructor
  · rintro ⟨m, hm⟩
    obtain ⟨h1, h2, -⟩ := firstExc_some.mp hm
    rw [hlen] at h1
    rw [key m h1, excess_reverse] at h2
    exact ⟨c - 1 - m, by omega, by omega, h2⟩
  · rintro ⟨m, h1, h2, h4⟩
    cases hf : firstExc (sec l a c).reverse (-r) with
    | some m => exact ⟨m, rfl⟩
    | none =>
      exfalso
      apply firstExc_none.mp hf (c - 1 - m) (by omega)
      rw [key _ (by omega), excess_reverse, show c - 1 - (c - 1 - m) = m by omega]
      exact h4

end Vers
