import Verif.Proofs.GenIter
import Verif.Props.RsVec

/-!
# Property C20: element iterators of the bit vector and of the rank/select vector

(The iterators of the wavelet matrix are instances of the same code, see C38.)
The length of the vector is below 2^64, as every `usize`.
-/

set_option linter.unusedSimpArgs false

namespace Vers

variable [Profile]
open Spec

omit [Profile] in
theorem vecOps_repr {v : BV} (h : v.WF) (hl : v.len < 2 ^ 64) :
    GenIter.Repr v.vecOps (v.bits.map b2w) := by
  refine ⟨by simp [BV.vecOps], by simpa using hl, ?_, ?_⟩
  · intro i
    rw [List.getElem?_map]
    exact BV.get_eq h i
  · intro i x hx
    rw [List.getElem?_map, BV.bits_getElem?] at hx
    by_cases hi : i < v.len
    · rw [if_pos hi] at hx
      have := BV.getUnchecked_eq (v := v) (BV.lt_of_wf h hi)
      simp only [Option.map_some, Option.some.injEq] at hx
      rw [← hx]
      exact this
    · rw [if_neg hi] at hx; cases hx

omit [Profile] in
theorem vecOps_from {v : BV} {rs : RsVec} (h3 : rs.data = v.data) (h4 : rs.len = v.len) :
    rs.vecOps = v.vecOps := by
  obtain ⟨d, l⟩ := v
  simp only at h3 h4
  subst h3; subst h4
  rfl

/-- Partial: the arguments of `nth` and `nth_back` are not above the number of remaining elements, see
`C20_nth_defect`. For every vector and every sequence of `next`, `next_back`, `nth`, `nth_back` and `len`
calls the iterator returns what a list of the elements consumed from both ends returns; `last` after any
such sequence is the last remaining element. -/
theorem C20_bit_vec_partial {v : BV} (h : v.WF) (hl : v.len < 2 ^ 64) (ops : List IterOp)
    (hops : CallsOk NthInRange (v.bits.map b2w) ops) :
    execute (GenIter.step v.vecOps) (GenIter.new v.vecOps) ops = .ok (iterRun (v.bits.map b2w) ops) ∧
    ∃ it, reach (GenIter.step v.vecOps) (GenIter.new v.vecOps) ops = .ok it ∧
      it.last v.vecOps = .ok (iterRest (v.bits.map b2w) ops).getLast? := by
  have hr := vecOps_repr h hl
  obtain ⟨it, g1, g2⟩ := GenIter.reach_eq hr ops hops
  exact ⟨GenIter.execute_eq hr ops hops, it, g1, GenIter.last_rel hr g2⟩

example := C20_bit_vec_partial (v := BV.fromOnes 70) (by decide) (by decide) [.nthBack 68, .next, .next, .nth 0]
  (by simp [CallsOk, iterStep, NthInRange, BV.fromOnes])

/-- The same for the iterator of the rank/select vector. -/
theorem C20_rs_vec_partial {v : BV} (h : v.WF) (hl : v.len < 2 ^ 64) :
    ∃ rs, RsVec.fromBitVec v = .ok rs ∧ ∀ ops, CallsOk NthInRange (v.bits.map b2w) ops →
      execute (GenIter.step rs.vecOps) (GenIter.new rs.vecOps) ops = .ok (iterRun (v.bits.map b2w) ops) ∧
      ∃ it, reach (GenIter.step rs.vecOps) (GenIter.new rs.vecOps) ops = .ok it ∧
        it.last rs.vecOps = .ok (iterRest (v.bits.map b2w) ops).getLast? := by
  obtain ⟨rs, h1, h2, h3, h4⟩ := fromBitVec_inv h
  refine ⟨rs, h1, fun ops hops => ?_⟩
  rw [vecOps_from h3 h4]
  exact C20_bit_vec_partial h hl ops hops

example := C20_rs_vec_partial (v := BV.fromOnes 70) (by decide) (by decide)

/-- Defect: after any such sequence of calls, `nth(n)` and `nth_back(n)` with `n` above the number of
remaining elements return `None` but do not consume the remaining elements. -/
theorem C20_nth_defect {v : BV} (h : v.WF) (hl : v.len < 2 ^ 64) (ops : List IterOp)
    (hops : CallsOk NthInRange (v.bits.map b2w) ops) :
    ∃ it, reach (GenIter.step v.vecOps) (GenIter.new v.vecOps) ops = .ok it ∧
      ∀ n, (iterRest (v.bits.map b2w) ops).length < n →
        (v.len + n < 2 ^ 64 → it.nth v.vecOps n = .ok (it, none)) ∧ it.nthBack v.vecOps n = .ok (it, none) := by
  have hr := vecOps_repr h hl
  obtain ⟨it, g1, g2⟩ := GenIter.reach_eq hr ops hops
  exact ⟨it, g1, fun n hn => ⟨fun hov => GenIter.nth_beyond hr g2 hn (by
    have := g2.le; have := g2.hi; simp at this; omega), GenIter.nthBack_beyond g2 hn⟩⟩

example : (iterRest ((BV.fromOnes 70).bits.map b2w) [.nthBack 68]).length < 2 := by decide

/-- Defect: on every non-empty vector, `nth(usize::MAX)` after one call of `next` panics with an arithmetic
overflow instead of returning `None`. -/
theorem C20_nth_overflow_defect (hd : Profile.debug = true) {v : BV} (h : v.WF) (hl : v.len < 2 ^ 64) (h0 : 0 < v.len)
    (n : Nat) (hn : n = 2 ^ 64 - 1) :
    execute (GenIter.step v.vecOps) (GenIter.new v.vecOps) [.next, .nth n] = .error .overflow ∧
    iterRun (v.bits.map b2w) [.next, .nth n] = [.item (v.bits.map b2w).head?, .item none] := by
  have hr := vecOps_repr h hl
  obtain ⟨it, g1, _⟩ := GenIter.next_rel hr (GenIter.new_rel hr)
  have hlen : (v.bits.map b2w).length = v.len := by simp
  obtain ⟨x, t, hx⟩ : ∃ x t, v.bits.map b2w = x :: t := by
    cases hb : v.bits.map b2w with
    | nil => rw [hb] at hlen; simp at hlen; omega
    | cons x t => exact ⟨x, t, rfl⟩
  constructor
  · rw [hx] at g1
    have hi := GenIter.next_index g1
    have h0 : (GenIter.new v.vecOps).index = 0 := by unfold GenIter.new; split <;> rfl
    simp only [execute, GenIter.step, g1, ok_bind, pure_eq_ok,
      GenIter.nth_overflow hd (v := v.vecOps) (it := it) (n := n) (by omega) (by omega)]
    rfl
  · rw [hx] at hlen ⊢
    have : t[n]? = none := List.getElem?_eq_none (by simp only [List.length_cons] at hlen; omega)
    simp only [iterRun, iterStep, List.head?_cons, List.tail_cons, this]

example (hd : Profile.debug = true) := C20_nth_overflow_defect hd (v := BV.fromOnes 70) (by decide) (by decide) (by decide) _ rfl

/-- The defect on a concrete vector: after `nth(4)` returned `None` on three elements, `next` returns an
element, whereas four calls of `next` would have exhausted the iterator. -/
theorem C20_nth_defect_example :
    execute (GenIter.step (BV.fromOnes 3).vecOps) (GenIter.new (BV.fromOnes 3).vecOps) [.nth 4, .next] =
      .ok [.item none, .item (some 1#64)] ∧
    iterRun ((BV.fromOnes 3).bits.map b2w) [.nth 4, .next] = [.item none, .item none] := by
  decide +revert +kernel

example : (BV.fromOnes 70).WF ∧ (BV.fromOnes 70).len < 2 ^ 64 ∧
    CallsOk NthInRange ((BV.fromOnes 70).bits.map b2w) [.nthBack 68, .next, .next, .nth 0, .nextBack] := by
  refine ⟨by decide, by decide, ?_⟩
  simp [CallsOk, iterStep, NthInRange, BV.fromOnes]

end Vers
