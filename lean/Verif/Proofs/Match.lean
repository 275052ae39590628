import Verif.Proofs.Forest
import Verif.Proofs.BpSpec

set_option linter.unusedSimpArgs false

/-! # Matching parentheses by excess -/

namespace Vers

variable [Profile]
open Spec

omit [Profile] in
/-- The excess changes by one per position, so a prefix of excess at most `r < 0` has a position of excess `r`. -/
theorem exists_hit_neg (l : List Bool) : ∀ {r : Int} {n : Nat}, r < 0 → excess (l.take n) ≤ r →
    ∃ m, m < n ∧ firstExc l r = some m := by
  induction l with
  | nil => intro r n hr h; simp [excess] at h; omega
  | cons x l ih =>
    intro r n hr h
    cases n with
    | zero => simp [excess] at h; omega
    | succ n =>
      rw [List.take_succ_cons, excess_cons] at h
      rw [firstExc]
      by_cases h0 : r - sgn x = 0
      · exact ⟨0, by omega, by rw [if_pos h0]⟩
      · obtain ⟨m, h1, h2⟩ := ih (r := r - sgn x) (n := n) (by rcases sgn_cases x with e | e <;> omega) (by omega)
        exact ⟨m + 1, by omega, by rw [if_neg h0, h2]; rfl⟩

omit [Profile] in
theorem sgn_not (x : Bool) : sgn (!x) = -sgn x := by cases x <;> rfl

omit [Profile] in
theorem excess_map_not (l : List Bool) : excess (l.map (!·)) = -excess l := by
  induction l with
  | nil => rfl
  | cons x l ih => rw [List.map_cons, excess_cons, excess_cons, ih, sgn_not]; omega

omit [Profile] in
theorem firstExc_map_not (l : List Bool) : ∀ r, firstExc (l.map (!·)) (-r) = firstExc l r := by
  induction l with
  | nil => intro r; rfl
  | cons x l ih =>
    intro r
    rw [List.map_cons, firstExc, firstExc, sgn_not, show -r - -sgn x = -(r - sgn x) by omega, ih]
    by_cases h : r - sgn x = 0
    · rw [if_pos h, if_pos (by omega)]
    · rw [if_neg h, if_neg (by omega)]

omit [Profile] in
theorem exists_hit_pos (l : List Bool) {r : Int} {n : Nat} (hr : 0 < r) (h : r ≤ excess (l.take n)) :
    ∃ m, m < n ∧ firstExc l r = some m := by
  rw [← firstExc_map_not]
  apply exists_hit_neg
  · omega
  · rw [← List.map_take, excess_map_not]; omega

omit [Profile] in
/-- Before the first position of negative excess `r` the excess is greater. -/
theorem excess_gt_of_firstExc {l : List Bool} {r : Int} {m : Nat} (hr : r < 0) (h : firstExc l r = some m) {n : Nat}
    (hn : n ≤ m) : r < excess (l.take n) := by
  apply Classical.byContradiction
  intro hc
  obtain ⟨m', h1, h2⟩ := exists_hit_neg l hr (n := n) (by omega)
  rw [h] at h2
  have := Option.some.inj h2
  omega

omit [Profile] in
theorem excess_lt_of_firstExc {l : List Bool} {r : Int} {m : Nat} (hr : 0 < r) (h : firstExc l r = some m) {n : Nat}
    (hn : n ≤ m) : excess (l.take n) < r := by
  apply Classical.byContradiction
  intro hc
  obtain ⟨m', h1, h2⟩ := exists_hit_pos l hr (n := n) (by omega)
  rw [h] at h2
  have := Option.some.inj h2
  omega

omit [Profile] in
/-- The first position of negative excess is a closing parenthesis. -/
theorem bit_of_firstExc_neg {l : List Bool} {r : Int} {m : Nat} (hr : r < 0) (h : firstExc l r = some m) :
    l[m]? = some false ∧ excess (l.take m) = r + 1 := by
  obtain ⟨h1, h2, -⟩ := firstExc_some.mp h
  have h3 := excess_gt_of_firstExc hr h (Nat.le_refl m)
  have hy : l[m]? = some l[m] := List.getElem?_eq_getElem h1
  rw [List.take_add_one, hy, Option.toList_some, excess_append, excess_singleton] at h2
  rw [hy]
  revert h2
  cases l[m] <;> simp [sgn] <;> omega

omit [Profile] in
theorem bit_of_firstExc_pos {l : List Bool} {r : Int} {m : Nat} (hr : 0 < r) (h : firstExc l r = some m) :
    l[m]? = some true ∧ excess (l.take m) = r - 1 := by
  obtain ⟨h1, h2, -⟩ := firstExc_some.mp h
  have h3 := excess_lt_of_firstExc hr h (Nat.le_refl m)
  have hy : l[m]? = some l[m] := List.getElem?_eq_getElem h1
  rw [List.take_add_one, hy, Option.toList_some, excess_append, excess_singleton] at h2
  rw [hy]
  revert h2
  cases l[m] <;> simp [sgn] <;> omega

omit [Profile] in
theorem firstExc_neg_one {l : List Bool} {m : Nat} :
    firstExc l (-1) = some m ↔ l[m]? = some false ∧ Balanced (l.take m) := by
  constructor
  · intro h
    obtain ⟨h1, h2⟩ := bit_of_firstExc_neg (by omega) h
    refine ⟨h1, fun n => ?_, by omega⟩
    rw [List.take_take]
    have := excess_gt_of_firstExc (by omega) h (n := min n m) (by omega)
    omega
  · rintro ⟨h1, h2, h3⟩
    have hm := (List.getElem?_eq_some_iff.mp h1).1
    apply firstExc_some.mpr
    refine ⟨hm, ?_, fun j hj => ?_⟩
    · rw [List.take_add_one, h1, Option.toList_some, excess_append, excess_singleton, h3]; rfl
    · have := h2 (j + 1)
      rw [List.take_take, Nat.min_eq_left (by omega)] at this
      omega

omit [Profile] in
/-- Reading a balanced sequence backwards in a mirror. -/
theorem balanced_mirror {l : List Bool} : Balanced (l.reverse.map (!·)) ↔ Balanced l := by
  have key : ∀ l : List Bool, Balanced l → Balanced (l.reverse.map (!·)) := by
    intro l h
    refine ⟨fun n => ?_, ?_⟩
    · rw [← List.map_take, excess_map_not, List.take_reverse, excess_reverse]
      have h1 := h.1 (l.length - n)
      have h2 := h.2
      have h3 := excess_append (l.take (l.length - n)) (l.drop (l.length - n))
      rw [List.take_append_drop] at h3
      omega
    · rw [excess_map_not, excess_reverse, h.2]; rfl
  refine ⟨fun h => ?_, key l⟩
  have := key _ h
  rw [← List.map_reverse, List.reverse_reverse, List.map_map] at this
  simpa [Function.comp_def] using this

omit [Profile] in
theorem firstExc_reverse_one {l : List Bool} {m : Nat} (hm : m < l.length) :
    firstExc l.reverse 1 = some m ↔ l[l.length - 1 - m]? = some true ∧ Balanced (l.drop (l.length - m)) := by
  rw [← firstExc_map_not, firstExc_neg_one, ← List.map_take, List.take_reverse, balanced_mirror, List.getElem?_map,
    List.getElem?_reverse hm]
  have : ∀ o : Option Bool, o.map (!·) = some false ↔ o = some true := by
    intro o; rcases o with - | - | - <;> simp
  rw [this]

omit [Profile] in
/-- `close`: the first position after an opening parenthesis at which the excess is -1. -/
theorem matches_iff_fwd {l : List Bool} {i j : Nat} : Matches l i j ↔ l[i]? = some true ∧ IsFwd l i (-1) j := by
  rw [← isFwd_iff, Option.map_eq_some_iff]
  constructor
  · rintro ⟨h1, h2, h3, h4⟩
    refine ⟨h2, j - (i + 1), firstExc_neg_one.mpr ⟨?_, ?_⟩, by omega⟩
    · rw [List.getElem?_drop, show i + 1 + (j - (i + 1)) = j by omega]; exact h3
    · rw [List.take_drop, show i + 1 + (j - (i + 1)) = j by omega]; exact h4
  · rintro ⟨h2, m, hm, rfl⟩
    obtain ⟨h3, h4⟩ := firstExc_neg_one.mp hm
    rw [List.getElem?_drop] at h3
    rw [List.take_drop] at h4
    exact ⟨by omega, h2, h3, h4⟩

omit [Profile] in
/-- `open`: the last position before a closing parenthesis at which the excess is 1. -/
theorem matches_iff_bwd {l : List Bool} {i j : Nat} : Matches l i j ↔ l[j]? = some false ∧ IsBwd l j (-1) i := by
  constructor
  · rintro ⟨h1, h2, h3, h4⟩
    have hj := (List.getElem?_eq_some_iff.mp h3).1
    refine ⟨h3, (isBwd_iff hj).mp ?_⟩
    have hl : (l.take j).length = j := by rw [List.length_take]; omega
    rw [show -(-1 : Int) = 1 by omega, (firstExc_reverse_one (m := j - 1 - i) (by omega)).mpr]
    · simp; omega
    · rw [hl, show j - 1 - (j - 1 - i) = i by omega, show j - (j - 1 - i) = i + 1 by omega]
      exact ⟨by rw [List.getElem?_take_of_lt h1]; exact h2, h4⟩
  · rintro ⟨h3, h⟩
    have hj := (List.getElem?_eq_some_iff.mp h3).1
    have hl : (l.take j).length = j := by rw [List.length_take]; omega
    have h5 := (isBwd_iff hj).mpr h
    rw [Option.map_eq_some_iff, show -(-1 : Int) = 1 by omega] at h5
    obtain ⟨m, hm, rfl⟩ := h5
    have hmj : m < j := by
      have := (firstExc_some.mp hm).1
      rw [List.length_reverse, hl] at this; exact this
    obtain ⟨h6, h7⟩ := (firstExc_reverse_one (by omega)).mp hm
    rw [hl] at h6 h7
    refine ⟨by omega, ?_, h3, ?_⟩
    · rw [List.getElem?_take_of_lt (by omega)] at h6; exact h6
    · rw [show j - 1 - m + 1 = j - m by omega]; exact h7

omit [Profile] in
theorem isFwd_unique {l : List Bool} {i : Nat} {r : Int} {j j' : Nat} (h : IsFwd l i r j) (h' : IsFwd l i r j') : j = j' :=
  Nat.le_antisymm (h.2 _ h'.1) (h'.2 _ h.1)

omit [Profile] in
theorem isBwd_unique {l : List Bool} {i : Nat} {r : Int} {j j' : Nat} (h : IsBwd l i r j) (h' : IsBwd l i r j') : j = j' :=
  Nat.le_antisymm (h'.2 _ h.1) (h.2 _ h'.1)

omit [Profile] in
/-- In a balanced sequence every parenthesis belongs to a node. -/
theorem around_matches {b : List Bool} {n : Node} {pre : List Bool} {c s : Forest} {post : List Bool}
    (h : Around b n pre c s post) : Matches b n.handle n.close := by
  refine matches_iff_fwd.mpr ⟨h.open_bit, isFwd_iff.mp h.fwd_close⟩

omit [Profile] in
theorem exists_close {l : List Bool} (hb : Balanced l) {i : Nat} (hi : l[i]? = some true) : ∃ j, Matches l i j := by
  obtain ⟨f, rfl⟩ := (balanced_iff l).mp hb
  obtain ⟨n, h1, rfl⟩ := exists_node hi
  obtain ⟨pre, c, s, post, h⟩ := around_nodes h1
  exact ⟨_, around_matches h⟩

omit [Profile] in
theorem exists_open {l : List Bool} (hb : Balanced l) {j : Nat} (hj : l[j]? = some false) : ∃ i, Matches l i j := by
  obtain ⟨f, rfl⟩ := (balanced_iff l).mp hb
  obtain ⟨n, h1, rfl⟩ := exists_node_close hj
  obtain ⟨pre, c, s, post, h⟩ := around_nodes h1
  exact ⟨_, around_matches h⟩

omit [Profile] in
/-- Inside a pair the excess since the opening parenthesis is at least one, and at least two before another
closing parenthesis. -/
theorem matches_excess {l : List Bool} {j c i : Nat} (h : Matches l j c) (h1 : j < i) (h2 : i < c) :
    1 ≤ excessOf l j i ∧ (l[i]? = some false → 2 ≤ excessOf l j i) := by
  have hf := (matches_iff_fwd.mp h).2
  rw [← isFwd_iff, Option.map_eq_some_iff] at hf
  obtain ⟨m, hm, hmc⟩ := hf
  have hlen : c < l.length := (List.getElem?_eq_some_iff.mp h.2.2.1).1
  have key : ∀ a, j < a → a ≤ c → 1 ≤ excessOf l j a := by
    intro a ha hac
    have := excess_gt_of_firstExc (by omega) hm (n := a - (j + 1)) (by omega)
    rw [take_drop_eq_sec, show j + 1 + (a - (j + 1)) = a by omega] at this
    have e : excessOf l j a = sgn true + excess (sec l (j + 1) a) := by
      rw [excessOf_eq, ← excess_cons, sec_succ' ha h.2.1]
    rw [e]; simp [sgn]; omega
  refine ⟨key i h1 (by omega), fun hi => ?_⟩
  have := key (i + 1) (by omega) (by omega)
  rw [excessOf_eq, sec_succ (by omega) hi, excess_append, excess_singleton, ← excessOf_eq] at this
  simp [sgn] at this; omega

omit [Profile] in
/-- `enclose`: for an opening parenthesis the last position before it at which the excess is 1, for a closing
parenthesis the last position at which it is 2. -/
theorem isEnclose_iff {l : List Bool} (hb : Balanced l) {i j : Nat} {x : Bool} (hi : l[i]? = some x) :
    IsEnclose l i j ↔ IsBwd l i (if x = true then -1 else -2) j := by
  have hil := (List.getElem?_eq_some_iff.mp hi).1
  have hbit : ∀ j, IsBwd l i (if x = true then -1 else -2) j → ∃ c, Matches l j c ∧ j < i ∧ i < c := by
    intro j hj
    have h5 := (isBwd_iff hil).mpr hj
    rw [Option.map_eq_some_iff] at h5
    obtain ⟨m, hm, rfl⟩ := h5
    have hpos : (0 : Int) < -(if x = true then -1 else -2) := by split <;> decide
    obtain ⟨g1, g2⟩ := bit_of_firstExc_pos hpos hm
    have hl : (l.take i).length = i := by rw [List.length_take]; omega
    have hmi : m < i := by
      have := (firstExc_some.mp hm).1
      rw [List.length_reverse, hl] at this; exact this
    rw [List.getElem?_reverse (by omega), hl, List.getElem?_take_of_lt (by omega)] at g1
    obtain ⟨c, hc⟩ := exists_close hb g1
    refine ⟨c, hc, by omega, ?_⟩
    apply Classical.byContradiction
    intro hci
    -- the pair ends at or before `i`
    have hlt := excess_lt_of_firstExc hpos hm (n := i - 1 - c)
    have hcz := hj.1.2.2
    have hbal := hc.2.2.2.2
    have hclose := hc.2.2.1
    have hjc := hc.1
    have e1 : excessOf l (i - 1 - m) (c + 1) = 0 ∨ c = i := by
      by_cases hci' : c = i
      · exact Or.inr hci'
      · left
        rw [excessOf_eq, sec_succ' (by omega) g1, excess_cons, sec_succ (by omega) hclose, excess_append, excess_singleton,
          show excess (sec l (i - 1 - m + 1) c) = 0 from hbal]
        rfl
    rcases e1 with e1 | e1
    · by_cases hci' : c = i
      · subst hci'
        rw [excessOf_eq, sec_succ (by omega) hclose, excess_append, excess_singleton, ← excessOf_eq] at e1
        rw [hi] at hclose
        have hx := Option.some.inj hclose
        subst hx
        simp [sgn] at e1 hcz; omega
      · have hs := sec_append l (a := i - 1 - m) (m := c + 1) (c := i) (by omega) (by omega)
        rw [excessOf_eq, ← hs, excess_append, ← excessOf_eq, e1] at hcz
        have hlt' := hlt (by omega)
        by_cases hz : i = c + 1
        · subst hz
          rw [sec_self] at hcz
          simp [excess] at hcz
          split at hcz <;> omega
        · rw [show i - 1 - c = (i - 2 - c) + 1 by omega, take_reverse_eq_sec l (by omega) (by omega), excess_reverse,
            show i - 1 - (i - 2 - c) = c + 1 by omega] at hlt'
          omega
    · subst e1
      rw [hi] at hclose
      have hx := Option.some.inj hclose
      subst hx
      rw [excessOf_eq, sec_succ' (by omega) g1, excess_cons, show excess (sec l (c - 1 - m + 1) c) = 0 from hbal] at hcz
      simp [sgn] at hcz
  have hle : ∀ j', (∃ c, Matches l j' c ∧ j' < i ∧ i < c) → ∃ j, j' ≤ j ∧ IsBwd l i (if x = true then -1 else -2) j := by
    rintro j' ⟨c, h1, h2, h3⟩
    have hexc := matches_excess h1 h2 h3
    have h4 : -(if x = true then -1 else -2 : Int) ≤ excessOf l j' i := by
      cases x with
      | true => simpa using hexc.1
      | false => simpa using hexc.2 hi
    have hpos : (0 : Int) < -(if x = true then -1 else -2) := by split <;> decide
    obtain ⟨m, g1, g2⟩ := exists_hit_pos (l.take i).reverse (n := i - j') hpos (by
      rw [show i - j' = (i - j' - 1) + 1 by omega, take_reverse_eq_sec l (by omega) (by omega), excess_reverse,
        show i - 1 - (i - j' - 1) = j' by omega]
      exact h4)
    exact ⟨i - 1 - m, by omega, (isBwd_iff hil).mp (by rw [g2]; rfl)⟩
  constructor
  · rintro ⟨h1, h2⟩
    obtain ⟨j1, g1, g2⟩ := hle j h1
    have := h2 j1 (hbit j1 g2)
    have e : j = j1 := by omega
    rw [e]; exact g2
  · intro h
    refine ⟨hbit j h, fun j' h' => ?_⟩
    obtain ⟨j1, g1, g2⟩ := hle j' h'
    rw [isBwd_unique h g2]; exact g1

end Vers
