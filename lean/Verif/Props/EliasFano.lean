import Verif.Proofs.EfIter

/-!
# Properties C21 to C26: the Elias-Fano vector

`fl` stands for the floating point expression `(x as f64).log2().ceil() as usize` of the construction. The
theorems hold for every `fl` with the properties `LogLike`; the exact logarithm has them (first example).
The sequences have less than 2^60 elements (8 EiB of input).
-/

set_option linter.unusedSimpArgs false

namespace Vers

variable [Profile]
open Spec

/-- The exact logarithm to base 2, rounded up. -/
def ceilLog2 (x : Nat) : Nat := if x ≤ 1 then 0 else (x - 1).log2 + 1

omit [Profile] in
theorem logLike_ceilLog2 : LogLike ceilLog2 := by
  constructor
  · intro n h1 _
    unfold ceilLog2
    rw [if_neg (by omega), if_neg (by omega)]
    have h1 : 2 ^ (max n 2 - 1).log2 ≤ max n 2 - 1 := (Nat.le_log2 (by omega)).mp (Nat.le_refl _)
    have := (Nat.le_log2 (n := n + 2 - 1) (by omega) (k := (max n 2 - 1).log2)).mpr (by omega)
    omega
  · intro x hx
    unfold ceilLog2
    by_cases h1 : x ≤ 1
    · rw [if_pos h1]; omega
    · rw [if_neg h1]
      have := (Nat.log2_lt (n := x - 1) (k := 64) (by omega)).mpr (by omega)
      omega
  · intro x hx _
    unfold ceilLog2
    rw [if_neg (by omega)]; omega
  · intro x hx _
    unfold ceilLog2
    rw [if_neg (by omega)]
    have h := Nat.lt_log2_self (n := x - 1)
    have : (2 : Nat) ^ ((x - 1).log2 + 1 + 1) = 2 ^ ((x - 1).log2 + 1) * 2 := Nat.pow_succ ..
    omega
  · intro x hx _
    unfold ceilLog2
    rw [if_neg (by omega)]
    have h1 : 2 ^ (x - 1).log2 ≤ x - 1 := (Nat.le_log2 (by omega)).mp (Nat.le_refl _)
    have : (2 : Nat) ^ ((x - 1).log2 + 1) = 2 ^ (x - 1).log2 * 2 := Nat.pow_succ ..
    omega

/-- A concrete sequence with duplicates and more than four elements that share their upper half. -/
def efExample : List Word := [5#64, 5#64, 6#64, 7#64, 7#64, 8#64, 9#64, 1000000#64]

example : LogLike ceilLog2 ∧ Sorted efExample ∧ efExample.length < 2 ^ 60 :=
  ⟨logLike_ceilLog2, by simp [Sorted, efExample], by decide⟩

/-- Construction succeeds on every sorted sequence, the length is the number of elements, and `get`
(and its alias `select`) returns the element at the index, or `None` from the length on. -/
theorem C21_get {fl : Nat → Nat} (hfl : LogLike fl) {data : List Word} (hs : Sorted data)
    (hl : data.length < 2 ^ 60) :
    ∃ ef, EF.fromSlice fl data = .ok ef ∧ ef.len = data.length ∧ ∀ i, ef.get i = .ok data[i]? := by
  obtain ⟨ef, e1, e2, _, e4⟩ := fromSlice_stores hfl hs hl
  refine ⟨ef, e1, e2, fun i => ?_⟩
  rcases e4 with ⟨rfl, _⟩ | h
  · unfold EF.get; rw [e2, if_pos (by simp)]; rfl
  · exact h.get i

/-- `get_unchecked` on the valid indices. -/
theorem C21_get_unchecked {fl : Nat → Nat} (hfl : LogLike fl) {data : List Word} (hs : Sorted data)
    (hl : data.length < 2 ^ 60) :
    ∃ ef, EF.fromSlice fl data = .ok ef ∧
      ∀ i x, data[i]? = some x → ef.getUnchecked i = .ok x := by
  obtain ⟨ef, e1, e2, _, e4⟩ := fromSlice_stores hfl hs hl
  refine ⟨ef, e1, fun i x hx => ?_⟩
  rcases e4 with ⟨rfl, _⟩ | h
  · simp at hx
  · obtain ⟨hi, rfl⟩ := List.getElem?_eq_some_iff.mp hx
    exact h.getUnchecked hi

example := C21_get_unchecked logLike_ceilLog2 (data := efExample) (by simp [Sorted, efExample]) (by decide)

/-- With debug assertions, a sequence that is not sorted is rejected by a panic. -/
theorem C21_unsorted_panics (hd : Profile.debug = true) {fl : Nat → Nat} {data : List Word} (hs : ¬ Sorted data) :
    EF.fromSlice fl data = .error .assertion := by
  unfold EF.fromSlice
  rw [if_neg (by rintro rfl; exact hs List.Pairwise.nil)]
  unfold EF.fromNonEmpty
  rw [dassertR_false hd (fun h => hs ((windowsSorted_iff _).mp h))]
  rfl

example : ¬ Sorted [1#64, 3#64, 2#64] := by simp [Sorted]

/-- `predecessor(x)` is the greatest element that is at most `x`, `None` if there is none. -/
theorem C22_predecessor {fl : Nat → Nat} (hfl : LogLike fl) {data : List Word} (hs : Sorted data)
    (hl : data.length < 2 ^ 60) :
    ∃ ef, EF.fromSlice fl data = .ok ef ∧
      ∀ x, ∃ o, ef.predecessor x = .ok o ∧ IsPredecessor data x o := by
  obtain ⟨ef, e1, e2, _, e4⟩ := fromSlice_stores hfl hs hl
  refine ⟨ef, e1, fun x => ?_⟩
  rcases e4 with ⟨rfl, _⟩ | h
  · refine ⟨none, ?_, fun z hz => by simp at hz⟩
    have e2 : ef.len = 0 := e2; unfold EF.predecessor; rw [if_pos (Or.inr e2)]; rfl
  · exact h.predecessor x

/-- `successor(x)` is the smallest element that is at least `x`, `None` if there is none. -/
theorem C23_successor {fl : Nat → Nat} (hfl : LogLike fl) {data : List Word} (hs : Sorted data)
    (hl : data.length < 2 ^ 60) :
    ∃ ef, EF.fromSlice fl data = .ok ef ∧
      ∀ x, ∃ o, ef.successor x = .ok o ∧ IsSuccessor data x o := by
  obtain ⟨ef, e1, e2, _, e4⟩ := fromSlice_stores hfl hs hl
  refine ⟨ef, e1, fun x => ?_⟩
  rcases e4 with ⟨rfl, _⟩ | h
  · refine ⟨none, ?_, fun z hz => by simp at hz⟩
    have e2 : ef.len = 0 := e2; unfold EF.successor; rw [if_pos (Or.inr e2)]; rfl
  · exact h.successor x

example := C23_successor logLike_ceilLog2 (data := efExample) (by simp [Sorted, efExample]) (by decide)

/-- `rank(x)` is the number of elements smaller than `x`, duplicates included. -/
theorem C24_rank {fl : Nat → Nat} (hfl : LogLike fl) {data : List Word} (hs : Sorted data)
    (hl : data.length < 2 ^ 60) :
    ∃ ef, EF.fromSlice fl data = .ok ef ∧
      ∀ x, ∃ r, ef.rank x = .ok r ∧ r.toNat = data.countP (fun y => decide (y < x)) := by
  obtain ⟨ef, e1, e2, _, e4⟩ := fromSlice_stores hfl hs hl
  refine ⟨ef, e1, fun x => ?_⟩
  rcases e4 with ⟨rfl, _⟩ | h
  · refine ⟨0#64, ?_, rfl⟩
    have e2 : ef.len = 0 := e2; unfold EF.rank; rw [if_pos (Or.inr e2), e2]; rfl
  · refine ⟨_, h.rank x, ?_⟩
    have := List.countP_le_length (p := fun y => decide (y < x)) (l := data)
    rw [BitVec.toNat_ofNat, Nat.mod_eq_of_lt (by omega)]

example := C24_rank logLike_ceilLog2 (data := efExample) (by simp [Sorted, efExample]) (by decide)

/-- `delta(i)` is the difference of the elements at `i` and `i - 1`, the first element for `i = 0` and
`None` from the length on. -/
theorem C25_delta {fl : Nat → Nat} (hfl : LogLike fl) {data : List Word} (hs : Sorted data)
    (hl : data.length < 2 ^ 60) :
    ∃ ef, EF.fromSlice fl data = .ok ef ∧
      ef.delta 0 = .ok data[0]? ∧
      (∀ i x y, data[i]? = some x → data[i + 1]? = some y → ef.delta (i + 1) = .ok (some (y - x))) ∧
      (∀ i, data.length ≤ i → ef.delta i = .ok none) := by
  obtain ⟨ef, e1, e2, _, e4⟩ := fromSlice_stores hfl hs hl
  have hout : ∀ i, data.length ≤ i → ef.delta i = .ok none := by
    intro i hi; unfold EF.delta; rw [e2, if_pos hi]; rfl
  refine ⟨ef, e1, ?_, ?_, hout⟩
  · rcases e4 with ⟨rfl, _⟩ | h
    · exact hout 0 (by simp)
    · obtain ⟨d, d1, d2⟩ := h.delta h.pos
      rw [d1, List.getElem?_eq_getElem h.pos]
      congr 2
      exact BitVec.eq_of_toNat_eq (by simpa using d2)
  · intro i x y hx hy
    obtain ⟨hi, rfl⟩ := List.getElem?_eq_some_iff.mp hy
    obtain ⟨hi', rfl⟩ := List.getElem?_eq_some_iff.mp hx
    rcases e4 with ⟨rfl, _⟩ | h
    · simp at hi
    · obtain ⟨d, d1, d2⟩ := h.delta hi
      rw [d1]
      congr 2
      apply BitVec.eq_of_toNat_eq
      have := sorted_le hs (i := i) (by omega) hi
      rw [BitVec.toNat_sub_of_le (by rw [BitVec.le_def]; exact this), d2, if_neg (by omega)]
      rfl

example := C25_delta logLike_ceilLog2 (data := efExample) (by simp [Sorted, efExample]) (by decide)

theorem fromSlice_holds {fl : Nat → Nat} (hfl : LogLike fl) {data : List Word} (hs : Sorted data)
    (hl : data.length < 2 ^ 60) :
    ∃ ef ps, EF.fromSlice fl data = .ok ef ∧ ef.Holds data ps ∧
      (∀ x, data[0]? = some x → ef.zero = x) := by
  obtain ⟨ef, e1, e2, e3, e4⟩ := fromSlice_stores hfl hs hl
  rcases e4 with ⟨rfl, h⟩ | h
  · exact ⟨ef, [], e1, EF.holds_of_empty e3 e2 h, fun x hx => by simp at hx⟩
  · obtain ⟨ps, hps⟩ := EF.holds_of_stores h
    exact ⟨ef, ps, e1, hps, fun x hx => by have := h.zero; rw [hx] at this; exact Option.some.inj this⟩

/-- Partial: the arguments of `nth` and `nth_back` are not above the number of remaining elements, see
`C26_nth_defect`, and `last`/`max` are not covered, see `C26_last_defect`. For every sorted sequence and every
sequence of `next`, `next_back`, `nth`, `nth_back` and `len` calls the iterator returns what a list of the
elements consumed from both ends returns, and `min` after it is the first remaining element. -/
theorem C26_iter_partial {fl : Nat → Nat} (hfl : LogLike fl) {data : List Word} (hs : Sorted data)
    (hl : data.length < 2 ^ 60) :
    ∃ ef it, EF.fromSlice fl data = .ok ef ∧ EfIter.new ef = .ok it ∧
      ∀ ops, CallsOk NthInRange data ops →
        execute (EfIter.step ef) it ops = .ok (iterRun data ops) ∧
        ∃ it', reach (EfIter.step ef) it ops = .ok it' ∧
          it'.minItem ef = .ok (iterRest data ops).head? := by
  obtain ⟨ef, ps, e1, h, _⟩ := fromSlice_holds hfl hs hl
  obtain ⟨it, i1, i2⟩ := EfIter.execute_eq h
  refine ⟨ef, it, e1, i1, fun ops hops => ?_⟩
  obtain ⟨g1, it', g2, g3⟩ := i2 ops hops
  refine ⟨g1, it', g2, ?_⟩
  obtain ⟨it'', k1, _⟩ := EfIter.next_rel h g3
  unfold EfIter.minItem
  rw [k1]; rfl

example := C26_iter_partial logLike_ceilLog2 (data := efExample) (by simp [Sorted, efExample]) (by decide)
example : CallsOk NthInRange efExample [.nextBack, .nth 2, .len, .next] := by
  simp [CallsOk, iterStep, NthInRange, efExample]

/-- Partial: `last` (and `max`, which calls it) is the last remaining element if the first element of the
sequence is zero. -/
theorem C26_last_partial {fl : Nat → Nat} (hfl : LogLike fl) {data : List Word} (hs : Sorted data)
    (hl : data.length < 2 ^ 60) (h0 : data[0]? = some 0#64) :
    ∃ ef it, EF.fromSlice fl data = .ok ef ∧ EfIter.new ef = .ok it ∧
      ∀ ops, CallsOk NthInRange data ops → ∃ it', reach (EfIter.step ef) it ops = .ok it' ∧
        it'.last ef = .ok (iterRest data ops).getLast? := by
  obtain ⟨ef, ps, e1, h, hz⟩ := fromSlice_holds hfl hs hl
  obtain ⟨it, i1, i2⟩ := EfIter.execute_eq h
  refine ⟨ef, it, e1, i1, fun ops hops => ?_⟩
  obtain ⟨_, it', g2, g3⟩ := i2 ops hops
  refine ⟨it', g2, ?_⟩
  rw [EfIter.last_rel h g3, hz _ h0]
  cases (iterRest data ops).getLast? <;> simp

example := C26_last_partial logLike_ceilLog2 (data := [0#64, 7#64, 7#64]) (by simp [Sorted]) (by decide) (by decide)

/-- Defect: `last` and `max` return the last remaining element minus the first element of the vector. -/
theorem C26_last_defect {fl : Nat → Nat} (hfl : LogLike fl) {data : List Word} (hs : Sorted data)
    (hl : data.length < 2 ^ 60) {x : Word} (h0 : data[0]? = some x) :
    ∃ ef it, EF.fromSlice fl data = .ok ef ∧ EfIter.new ef = .ok it ∧
      ∀ ops, CallsOk NthInRange data ops → ∃ it', reach (EfIter.step ef) it ops = .ok it' ∧
        it'.last ef = .ok ((iterRest data ops).getLast?.map (· - x)) := by
  obtain ⟨ef, ps, e1, h, hz⟩ := fromSlice_holds hfl hs hl
  obtain ⟨it, i1, i2⟩ := EfIter.execute_eq h
  refine ⟨ef, it, e1, i1, fun ops hops => ?_⟩
  obtain ⟨_, it', g2, g3⟩ := i2 ops hops
  refine ⟨it', g2, ?_⟩
  rw [EfIter.last_rel h g3, hz _ h0]

example := C26_last_defect logLike_ceilLog2 (data := [5#64, 7#64]) (by simp [Sorted]) (by decide) (x := 5#64) (by decide)

/-- Defect: `nth(n)` and `nth_back(n)` with `n` above the number of remaining elements return `None` but do
not consume the remaining elements. -/
theorem C26_nth_defect {fl : Nat → Nat} (hfl : LogLike fl) {data : List Word} (hs : Sorted data)
    (hl : data.length < 2 ^ 60) :
    ∃ ef it, EF.fromSlice fl data = .ok ef ∧ EfIter.new ef = .ok it ∧
      ∀ ops, CallsOk NthInRange data ops → ∃ it', reach (EfIter.step ef) it ops = .ok it' ∧
        ∀ n, (iterRest data ops).length < n →
          (data.length + n < 2 ^ 64 → it'.nth ef n = .ok (it', none)) ∧ it'.nthBack ef n = .ok (it', none) := by
  obtain ⟨ef, ps, e1, h, hz⟩ := fromSlice_holds hfl hs hl
  obtain ⟨it, i1, i2⟩ := EfIter.execute_eq h
  refine ⟨ef, it, e1, i1, fun ops hops => ?_⟩
  obtain ⟨_, it', g2, g3⟩ := i2 ops hops
  exact ⟨it', g2, fun n hn => ⟨fun hov => EfIter.nth_beyond h g3 hn (by have := g3.pos.le; have := g3.pos.hi; omega), EfIter.nthBack_beyond h g3 hn⟩⟩

example : (iterRest efExample [.next, .nthBack 1]).length < efExample.length := by decide

/-- Defect: on every non-empty sequence, `nth(usize::MAX)` after one call of `next` panics with an
arithmetic overflow instead of returning `None`. -/
theorem C26_nth_overflow_defect (hd : Profile.debug = true) {fl : Nat → Nat} (hfl : LogLike fl) {data : List Word} (hs : Sorted data)
    (hl : data.length < 2 ^ 60) (h0 : data ≠ []) (n : Nat) (hn : n = 2 ^ 64 - 1) :
    ∃ ef it, EF.fromSlice fl data = .ok ef ∧ EfIter.new ef = .ok it ∧
      execute (EfIter.step ef) it [.next, .nth n] = .error .overflow := by
  obtain ⟨ef, ps, e1, h, hz⟩ := fromSlice_holds hfl hs hl
  obtain ⟨it, i1, i2⟩ := EfIter.new_rel h
  obtain ⟨it', g1, _⟩ := EfIter.next_rel h i2
  refine ⟨ef, it, e1, i1, ?_⟩
  obtain ⟨x, t, rfl⟩ := List.exists_cons_of_ne_nil h0
  have hi := EfIter.next_index g1
  have hle := i2.pos.le
  have hhi := i2.pos.hi
  simp only [execute, EfIter.step, g1, ok_bind, pure_eq_ok,
    EfIter.nth_overflow hd (ef := ef) (it := it') (n := n) (by omega) (by omega)]
  rfl

example : CallsOk NthInRange efExample [.nthBack 2, .next, .nth 1, .nextBack, .len, .nth 1] := by
  simp [CallsOk, iterStep, NthInRange, efExample]

/-- The defect of `last` on a concrete sequence: the last element of `[5, 7]` is reported as 2. -/
example : (do
    let ef ← EF.fromSlice ceilLog2 [5#64, 7#64]
    let it ← EfIter.new ef
    it.last ef) = .ok (some 2#64) := by decide +revert +kernel

/-- The queries on the concrete sequence, executed. -/
example : (do
    let ef ← EF.fromSlice ceilLog2 efExample
    let p ← ef.predecessor 999#64
    let s ← ef.successor 10#64
    let r ← ef.rank 8#64
    let d ← ef.delta 7
    pure (p, s, r, d)) = .ok (some 9#64, some 1000000#64, 5#64, some 999991#64) := by decide +revert +kernel

end Vers
