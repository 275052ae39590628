import Verif.Proofs.IterSim
import Verif.Proofs.Positions
import Verif.Model.GenIter

/-! # The element iterators simulate a list consumed from both ends -/

set_option linter.unusedSimpArgs false

namespace Vers

variable [Profile]
open Spec
namespace GenIter
variable {α : Type}

/-- `v` behaves as the list `l`. -/
structure Repr (v : VecOps α) (l : List α) : Prop where
  len : v.len = l.length
  lt : l.length < 2 ^ 64
  get : ∀ i, v.get i = .ok l[i]?
  getU : ∀ i x, l[i]? = some x → v.getUnchecked i = .ok x

/-- one past the last unconsumed position -/
def hi (it : GenIter) : Nat := match it.back with | none => 0 | some b => b + 1

/-- the state stands for the remaining elements `r` of `l` -/
structure Rel (l : List α) (it : GenIter) (r : List α) : Prop where
  le : it.index ≤ it.hi
  hi : it.hi ≤ l.length
  rest : r = (l.take it.hi).drop it.index

omit [Profile] in
theorem Rel.length {l r : List α} {it : GenIter} (h : Rel l it r) : r.length = it.hi - it.index := by
  rw [h.rest]; have := h.hi; simp; omega

omit [Profile] in
theorem isEmpty_eq (it : GenIter) : someGt it.index it.back = decide (it.hi ≤ it.index) := by
  unfold someGt hi
  cases it.back with
  | none => simp
  | some b => simp; omega

omit [Profile] in
theorem new_rel {v : VecOps α} {l : List α} (h : Repr v l) : Rel l (new v) l := by
  unfold new
  rw [h.len]
  by_cases h0 : l.length = 0
  · rw [if_pos h0]
    exact ⟨by simp, by simp [GenIter.hi], by simpa [GenIter.hi] using h0⟩
  · rw [if_neg h0]
    refine ⟨by simp, by simp [GenIter.hi]; omega, ?_⟩
    simp only [GenIter.hi]
    rw [List.take_of_length_le (by omega)]; simp

omit [Profile] in
theorem len_rel {v : VecOps α} {l r : List α} {it : GenIter} (h : Repr v l) (hr : Rel l it r) :
    it.len = r.length := by
  rw [hr.length]
  obtain ⟨i, b⟩ := it
  have h1 := hr.le
  have h2 := hr.hi
  have h3 := h.lt
  unfold GenIter.len wrappingAdd wrappingSub
  cases b with
  | none => simp only [GenIter.hi] at *; simp; omega
  | some b => simp only [GenIter.hi, Option.getD_some] at *; omega

omit [Profile] in
theorem next_rel {v : VecOps α} {l r : List α} {it : GenIter} (h : Repr v l) (hr : Rel l it r) :
    ∃ it', it.next v = .ok (it', r.head?) ∧ Rel l it' r.tail := by
  have h1 := hr.le
  have h2 := hr.hi
  unfold next isEmpty
  rw [isEmpty_eq]
  by_cases he : it.hi ≤ it.index
  · have : r = [] := List.length_eq_zero_iff.mp (by rw [hr.length]; omega)
    simp only [he, decide_true, if_true]
    subst this
    exact ⟨it, rfl, hr⟩
  · simp only [he, decide_false, Bool.false_eq_true, if_false, h.get, ok_bind]
    have hlt : it.index < l.length := by omega
    have hh : r.head? = some l[it.index] := by
      rw [hr.rest, List.head?_drop, List.getElem?_take, if_pos (by omega), List.getElem?_eq_getElem hlt]
    rw [List.getElem?_eq_getElem hlt, hh]
    refine ⟨_, rfl, ?_, h2, ?_⟩
    · show it.index + 1 ≤ it.hi; omega
    · rw [hr.rest, List.tail_drop]; rfl

omit [Profile] in
theorem nextBack_rel {v : VecOps α} {l r : List α} {it : GenIter} (h : Repr v l) (hr : Rel l it r) :
    ∃ it', it.nextBack v = .ok (it', r.getLast?) ∧ Rel l it' r.dropLast := by
  have h1 := hr.le
  have h2 := hr.hi
  unfold nextBack
  rw [isEmpty_eq]
  by_cases he : it.hi ≤ it.index
  · have : r = [] := List.length_eq_zero_iff.mp (by rw [hr.length]; omega)
    simp only [he, decide_true, if_true]
    subst this
    exact ⟨it, rfl, hr⟩
  · simp only [he, decide_false, Bool.false_eq_true, if_false]
    obtain ⟨i, b⟩ := it
    cases b with
    | none => simp [GenIter.hi] at he
    | some b =>
      simp only [GenIter.hi] at h1 h2 he
      simp only [unwrapR_some, ok_bind, h.get]
      have hrest := hr.rest
      simp only [GenIter.hi] at hrest
      have hh : r.getLast? = some l[b] := by
        rw [List.getLast?_eq_getElem?, hr.length, hrest]
        simp only [GenIter.hi]
        rw [List.getElem?_drop, List.getElem?_take, if_pos (by omega),
          show i + (b + 1 - i - 1) = b by omega, List.getElem?_eq_getElem (by omega)]
      rw [List.getElem?_eq_getElem (show b < l.length by omega), hh]
      refine ⟨_, rfl, ?_⟩
      have hhi : GenIter.hi ⟨i, if b = 0 then none else some (b - 1)⟩ = b := by
        unfold GenIter.hi
        by_cases hb : b = 0
        · simp [hb]
        · simp only [hb, if_false]; omega
      refine ⟨?_, ?_, ?_⟩
      · rw [hhi]; show i ≤ b; omega
      · rw [hhi]; omega
      · rw [hhi, List.dropLast_eq_take, hr.length, hrest]
        simp only [GenIter.hi]
        rw [List.take_drop, List.take_take, show min (i + (b + 1 - i - 1)) (b + 1) = b by omega]

theorem advanceBy_rel {l r : List α} {it : GenIter} (hl : l.length < 2 ^ 64) (hr : Rel l it r) (n : Nat) :
    (n ≤ r.length → ∃ it', it.advanceBy n = .ok (.ok it') ∧ Rel l it' (r.drop n)) ∧
    (r.length < n → it.index + n < 2 ^ 64 → ∃ e, it.advanceBy n = .ok (.error e)) := by
  have h1 := hr.le
  have h2 := hr.hi
  have hlen := hr.length
  unfold advanceBy
  by_cases h0 : n = 0
  · subst h0
    exact ⟨fun _ => ⟨it, by simp, by simpa using hr⟩, fun h => by omega⟩
  · rw [if_neg h0]
    have hg : someGt (it.index + n - 1) it.back = decide (it.hi < it.index + n) := by
      unfold someGt GenIter.hi
      cases it.back with
      | none => simp; omega
      | some b => simp; omega
    constructor
    · intro hn
      rw [addU_of_lt (by omega), ok_bind, subR_of_le (by omega), ok_bind, hg, if_neg (by simp; omega)]
      refine ⟨_, rfl, ?_, h2, ?_⟩
      · show it.index + n ≤ it.hi; omega
      · rw [hr.rest, List.drop_drop]; rfl
    · intro hn hov
      rw [addU_of_lt hov, ok_bind, subR_of_le (by omega), ok_bind, hg, if_pos (by simp; omega)]
      unfold advanceErr
      rw [isEmpty_eq]
      by_cases he : it.hi ≤ it.index
      · simp only [he, decide_true, if_true, nonZeroR, if_neg h0, ok_bind]
        exact ⟨_, rfl⟩
      · simp only [he, decide_false, Bool.false_eq_true, if_false]
        have hw : wrappingAdd (wrappingSub (it.back.getD (2 ^ 64 - 1)) it.index) 1 = r.length := by
          obtain ⟨i, b⟩ := it
          cases b with
          | none => simp [GenIter.hi] at he
          | some b =>
            simp only [GenIter.hi, Option.getD_some, wrappingAdd, wrappingSub] at *; omega
        rw [hw, subR_of_le (by omega), ok_bind]
        unfold nonZeroR
        rw [if_neg (by omega)]
        exact ⟨_, rfl⟩

theorem advanceBackBy_rel {l r : List α} {it : GenIter} (hr : Rel l it r) (n : Nat) :
    (n ≤ r.length → ∃ it', it.advanceBackBy n = .ok (.ok it') ∧ Rel l it' (r.take (r.length - n))) ∧
    (r.length < n → ∃ e, it.advanceBackBy n = .ok (.error e)) := by
  have h1 := hr.le
  have h2 := hr.hi
  have hlen := hr.length
  unfold advanceBackBy
  by_cases h0 : n = 0
  · subst h0
    exact ⟨fun _ => ⟨it, by simp, by simpa using hr⟩, fun h => by omega⟩
  · rw [if_neg h0]
    unfold isEmpty
    rw [isEmpty_eq]
    by_cases he : it.hi ≤ it.index
    · simp only [he, decide_true, if_true, nonZeroR, if_neg h0, ok_bind]
      exact ⟨fun h => by omega, fun _ => ⟨_, rfl⟩⟩
    · simp only [he, decide_false, Bool.false_eq_true, if_false]
      obtain ⟨i, b⟩ := it
      cases b with
      | none => simp [GenIter.hi] at he
      | some b =>
        simp only [GenIter.hi] at h1 h2 he hlen
        simp only [unwrapR_some, ok_bind]
        rw [subR_of_le (by omega), ok_bind]
        constructor
        · intro hn
          rw [if_neg (by omega)]
          refine ⟨_, rfl, ?_⟩
          have hhi : GenIter.hi ⟨i, if geSome (some b) n then (some b).map (· - n) else none⟩ = b + 1 - n := by
            unfold GenIter.hi geSome
            by_cases hb : n ≤ b
            · simp [hb]; omega
            · simp [hb]; omega
          refine ⟨?_, ?_, ?_⟩
          · rw [hhi]; show i ≤ _; omega
          · rw [hhi]; omega
          · rw [hhi, hlen, hr.rest]
            simp only [GenIter.hi]
            rw [List.take_drop, List.take_take, show min (i + (b + 1 - i - n)) (b + 1) = b + 1 - n by omega]
        · intro hn
          rw [if_pos (by omega)]
          unfold nonZeroR
          rw [if_neg (by omega)]
          exact ⟨_, rfl⟩

theorem nth_rel {v : VecOps α} {l r : List α} {it : GenIter} (h : Repr v l) (hr : Rel l it r) {n : Nat}
    (hn : n ≤ r.length) : ∃ it', it.nth v n = .ok (it', r[n]?) ∧ Rel l it' (r.drop (n + 1)) := by
  obtain ⟨it', g1, g2⟩ := (advanceBy_rel h.lt hr n).1 hn
  obtain ⟨it'', k1, k2⟩ := next_rel h g2
  refine ⟨it'', ?_, ?_⟩
  · unfold nth; rw [g1, ok_bind]; simp only []; rw [k1, List.head?_drop]
  · rwa [List.tail_drop] at k2

theorem nth_beyond {v : VecOps α} {l r : List α} {it : GenIter} (h : Repr v l) (hr : Rel l it r) {n : Nat}
    (hn : r.length < n) (hov : it.index + n < 2 ^ 64) : it.nth v n = .ok (it, none) := by
  obtain ⟨e, g⟩ := (advanceBy_rel h.lt hr n).2 hn hov
  unfold nth; rw [g, ok_bind]; rfl

omit [Profile] in
theorem next_index {v : VecOps α} {it it' : GenIter} {x : α} (h : it.next v = .ok (it', some x)) :
    it'.index = it.index + 1 := by
  unfold next at h
  split at h
  · injection h with h
    injection h with _ h
    cases h
  · obtain ⟨o, _, h⟩ := bind_eq_ok.mp h
    split at h
    · injection h with h
      injection h with h _
      rw [← h]
    · injection h with h
      injection h with _ h
      cases h

theorem nth_overflow (hd : Profile.debug = true) {v : VecOps α} {it : GenIter} {n : Nat} (hi : it.index ≤ n)
    (hov : 2 ^ 64 ≤ it.index + n) : it.nth v n = .error .overflow := by
  unfold nth advanceBy
  rw [if_neg (by omega), addU_overflow hd hov]; rfl

theorem nthBack_rel {v : VecOps α} {l r : List α} {it : GenIter} (h : Repr v l) (hr : Rel l it r) {n : Nat}
    (hn : n ≤ r.length) :
    ∃ it', it.nthBack v n = .ok (it', r.reverse[n]?) ∧ Rel l it' (r.take (r.length - (n + 1))) := by
  obtain ⟨it', g1, g2⟩ := (advanceBackBy_rel hr n).1 hn
  obtain ⟨it'', k1, k2⟩ := nextBack_rel h g2
  refine ⟨it'', ?_, ?_⟩
  · unfold nthBack; rw [g1, ok_bind]; simp only []; rw [k1]
    congr 2
    rw [List.getLast?_eq_getElem?, List.getElem?_take, List.length_take]
    by_cases hlt : n < r.length
    · rw [if_pos (by omega), List.getElem?_reverse hlt]; congr 1; omega
    · rw [if_neg (by omega), List.getElem?_eq_none (by simp; omega)]
  · rw [List.dropLast_eq_take, List.take_take, List.length_take] at k2
    rwa [show min (min (r.length - n) r.length - 1) (r.length - n) = r.length - (n + 1) by omega] at k2

theorem nthBack_beyond {v : VecOps α} {l r : List α} {it : GenIter} (hr : Rel l it r) {n : Nat}
    (hn : r.length < n) : it.nthBack v n = .ok (it, none) := by
  obtain ⟨e, g⟩ := (advanceBackBy_rel hr n).2 hn
  unfold nthBack; rw [g, ok_bind]; rfl

omit [Profile] in
theorem last_rel {v : VecOps α} {l r : List α} {it : GenIter} (h : Repr v l) (hr : Rel l it r) :
    it.last v = .ok r.getLast? := by
  have h1 := hr.le
  have h2 := hr.hi
  unfold last isEmpty
  rw [isEmpty_eq]
  by_cases he : it.hi ≤ it.index
  · have : r = [] := List.length_eq_zero_iff.mp (by rw [hr.length]; omega)
    simp [he, this]
  · simp only [he, decide_false, Bool.false_eq_true, if_false]
    obtain ⟨i, b⟩ := it
    cases b with
    | none => simp [GenIter.hi] at he
    | some b =>
      simp only [GenIter.hi] at h1 h2 he
      have hb : b < l.length := by omega
      simp only [unwrapR_some, ok_bind]
      rw [h.getU b l[b] (List.getElem?_eq_getElem hb), ok_bind]
      have hh : r.getLast? = some l[b] := by
        rw [List.getLast?_eq_getElem?, hr.length, hr.rest]
        simp only [GenIter.hi]
        rw [List.getElem?_drop, List.getElem?_take, if_pos (by omega),
          show i + (b + 1 - i - 1) = b by omega, List.getElem?_eq_getElem (by omega)]
      rw [hh]; rfl

end GenIter

namespace GenIter
variable {α : Type}

theorem step_rel {v : VecOps α} {l r : List α} {it : GenIter} (h : Repr v l) (hr : Rel l it r)
    (op : IterOp) (hop : NthInRange r op) :
    ∃ it', step v it op = .ok (it', (iterStep r op).1) ∧ Rel l it' (iterStep r op).2 := by
  cases op with
  | next => obtain ⟨it', g1, g2⟩ := next_rel h hr; exact ⟨it', by simp only [step]; rw [g1]; rfl, g2⟩
  | nextBack => obtain ⟨it', g1, g2⟩ := nextBack_rel h hr; exact ⟨it', by simp only [step]; rw [g1]; rfl, g2⟩
  | len => exact ⟨it, by simp only [step, len_rel h hr]; rfl, hr⟩
  | nth n => obtain ⟨it', g1, g2⟩ := nth_rel h hr hop; exact ⟨it', by simp only [step]; rw [g1]; rfl, g2⟩
  | nthBack n => obtain ⟨it', g1, g2⟩ := nthBack_rel h hr hop; exact ⟨it', by simp only [step]; rw [g1]; rfl, g2⟩

theorem execute_eq {v : VecOps α} {l : List α} (h : Repr v l) (ops : List IterOp)
    (hops : CallsOk NthInRange l ops) : execute (step v) (new v) ops = .ok (iterRun l ops) :=
  execute_of_sim (rel := Rel l) (fun _ _ op hr ho => step_rel h hr op ho) ops _ _ (new_rel h) hops

/-- the state reached by calls in range -/
theorem reach_eq {v : VecOps α} {l : List α} (h : Repr v l) (ops : List IterOp)
    (hops : CallsOk NthInRange l ops) :
    ∃ it, reach (step v) (new v) ops = .ok it ∧ Rel l it (iterRest l ops) :=
  reach_of_sim (rel := Rel l) (fun _ _ op hr ho => step_rel h hr op ho) ops _ _ (new_rel h) hops

end GenIter
end Vers
