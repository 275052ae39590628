import Verif.Model.EliasFanoIter
import Verif.Proofs.EfTop
import Verif.Proofs.GenIter

/-! # The iterators of the Elias-Fano vector -/

set_option linter.unusedSimpArgs false

namespace Vers

variable [Profile]
open Spec

/-- what the iterator needs to know about the vector -/
structure EF.Holds (ef : EF) (data : List Word) (ps : List Nat) : Prop where
  up : ef.upper.Inv
  pseq : positions true ef.upper.intoBitVec.bits = ps
  len : ef.len = data.length
  plen : ps.length = data.length
  lt : data.length < 2 ^ 60
  elem : ∀ i p x, ps[i]? = some p → data[i]? = some x →
    ∃ c, EfIter.combine ef p i = .ok c ∧ addW c ef.zero = .ok x ∧ c = x - ef.zero

theorem EF.holds_of_empty {ef : EF} (hu : ef.upper.Inv) (hl : ef.len = 0) (h0 : ef.upper.len = 0) :
    ef.Holds [] [] := by
  have hp : positions true ef.upper.intoBitVec.bits = [] := by
    have hb : ef.upper.intoBitVec.bits = [] := by
      apply List.eq_nil_of_length_eq_zero
      rw [BV.length_bits]; exact h0
    rw [hb]; rfl
  exact ⟨hu, hp, by simpa using hl, rfl, by simp, fun i p x h => by simp at h⟩

theorem EF.holds_of_stores {ef : EF} {data : List Word} (h : ef.Stores data) :
    ∃ ps, ef.Holds data ps := by
  have hc : C ef.upper.data true ef.upper.len = data.length := by
    refine h.inv.count_ones (Nat.le_refl _) (Nat.le_refl _) (fun i hi => h.inv.pos_lt hi) ?_
    intro i h1 h2; omega
  have hpl : (positions true ef.upper.intoBitVec.bits).length = data.length := by
    rw [← hc]; exact SelIter.length_positions_eq (rs := ef.upper) false
  refine ⟨_, h.inv.up, rfl, h.inv.len, hpl, h.lt, ?_⟩
  intro i p x hp hx
  obtain ⟨hi, rfl⟩ := List.getElem?_eq_some_iff.mp hx
  have hlt := h.inv.pos_lt hi
  have hone : lbit ef.upper.data (EF.hiD ef (efD data) i + i + 1) = true := (h.inv.ubit _ hlt).mpr ⟨i, hi, rfl⟩
  have hci : C ef.upper.data true (EF.hiD ef (efD data) i + i + 1) = i := by
    refine h.inv.count_ones (by omega) (by omega) (fun j hj => h.inv.enum_mono j i hj hi) ?_
    intro j h1 h2
    rcases Nat.eq_or_lt_of_le h1 with h3 | h3
    · subst h3; omega
    · have := h.inv.enum_mono i j h3 h2; omega
  have hpp := SelIter.positions_of_pos (rs := ef.upper) (zero := false) (k := i)
    (p := EF.hiD ef (efD data) i + i + 1) (by rw [Bool.not_false, hc]; exact hi) ⟨hone, hci⟩
  rw [Bool.not_false, hp] at hpp
  rw [Option.some.inj hpp]
  have l1 : ef.lowAt i = .ok (EF.loW ef (efD data) i) := h.inv.low i hi
  have hcomb := h.inv.combine hi
  have hv := h.value hi
  refine ⟨(BitVec.ofNat 64 (EF.hiD ef (efD data) i) <<< ef.lowerLen) ||| EF.loW ef (efD data) i, ?_, ?_, ?_⟩
  · unfold EfIter.combine
    rw [subR_of_le (by omega), ok_bind, subR_of_le (by omega), ok_bind, l1, ok_bind,
      show EF.hiD ef (efD data) i + i + 1 - i - 1 = EF.hiD ef (efD data) i by omega]
    rfl
  · obtain ⟨d, d1, d2⟩ := addW_of_lt (a := (BitVec.ofNat 64 (EF.hiD ef (efD data) i) <<< ef.lowerLen) |||
        EF.loW ef (efD data) i) (b := ef.zero) (by rw [hcomb]; have := data[i].isLt; omega)
    rw [d1]
    congr 1
    apply BitVec.eq_of_toNat_eq
    omega
  · apply BitVec.eq_of_toNat_eq
    rw [BitVec.toNat_sub_of_le (by rw [BitVec.le_def]; omega)]
    omega

namespace EfIter
variable {ef : EF} {data : List Word} {ps : List Nat}

/-- the state stands for the remaining elements `r`; `q` are the remaining positions in the upper vector -/
structure Rel (ef : EF) (data : List Word) (ps : List Nat) (it : EfIter) (r : List Word) : Prop where
  pos : GenIter.Rel data it.pos r
  up : SelIter.Rel ef.upper false it.up ((ps.take it.pos.hi).drop it.pos.index)

/-- the position list as another list behind the same iterator positions -/
theorem Rel.gen (h : ef.Holds data ps) {it : EfIter} {r : List Word} (hr : Rel ef data ps it r) :
    GenIter.Rel ps it.pos ((ps.take it.pos.hi).drop it.pos.index) :=
  ⟨hr.pos.le, by rw [h.plen]; exact hr.pos.hi, rfl⟩

theorem new_rel (h : ef.Holds data ps) : ∃ it, new ef = .ok it ∧ Rel ef data ps it data := by
  obtain ⟨up, u1, u2, _⟩ := SelIter.new_rel (rs := ef.upper) (zero := false) h.up
  rw [Bool.not_false, h.pseq] at u2
  unfold new
  rw [u1, ok_bind, h.len]
  have hp := h.plen
  by_cases h0 : data.length = 0
  · rw [if_pos h0]
    refine ⟨_, rfl, ⟨by simp, by simp [GenIter.hi], by simpa [GenIter.hi] using h0⟩, ?_⟩
    have : ps = [] := List.eq_nil_of_length_eq_zero (by omega)
    simpa [GenIter.hi, this] using u2
  · rw [if_neg h0]
    refine ⟨_, rfl, ⟨by simp, by simp [GenIter.hi]; omega, ?_⟩, ?_⟩
    · simp only [GenIter.hi]
      rw [List.take_of_length_le (by omega)]; simp
    · simp only [GenIter.hi]
      rw [List.take_of_length_le (by omega)]; simpa using u2

theorem len_rel (h : ef.Holds data ps) {it : EfIter} {r : List Word} (hr : Rel ef data ps it r) :
    it.pos.len = r.length :=
  GenIter.len_rel (v := ⟨data.length, fun i => .ok data[i]?, fun i => .ok (data[i]?.getD 0)⟩)
    ⟨rfl, by have := h.lt; omega, fun i => rfl, fun i x hx => by simp [hx]⟩ hr.pos

theorem next_rel (h : ef.Holds data ps) {it : EfIter} {r : List Word} (hr : Rel ef data ps it r) :
    ∃ it', it.next ef = .ok (it', r.head?) ∧ Rel ef data ps it' r.tail := by
  obtain ⟨up, u1, u2⟩ := SelIter.next_rel h.up hr.up
  have h1 := hr.pos.le
  have h2 := hr.pos.hi
  have hp := h.plen
  unfold next
  rw [u1, ok_bind]
  simp only []
  by_cases he : it.pos.hi ≤ it.pos.index
  · have hr0 : r = [] := List.length_eq_zero_iff.mp (by rw [hr.pos.length]; omega)
    have hq : (ps.take it.pos.hi).drop it.pos.index = [] :=
      List.drop_eq_nil_of_le (by rw [List.length_take]; omega)
    rw [hq] at u2 ⊢
    refine ⟨⟨it.pos, up⟩, by rw [hr0]; rfl, ?_, ?_⟩
    · simpa [hr0] using hr.pos
    · rw [hq]; exact u2
  · have hlt : it.pos.index < data.length := by omega
    have hh : r.head? = some data[it.pos.index] := by
      rw [hr.pos.rest, List.head?_drop, List.getElem?_take, if_pos (by omega), List.getElem?_eq_getElem hlt]
    have hq : ((ps.take it.pos.hi).drop it.pos.index).head? = some (ps[it.pos.index]'(by omega)) := by
      rw [List.head?_drop, List.getElem?_take, if_pos (by omega), List.getElem?_eq_getElem (by omega)]
    obtain ⟨c, c1, c2, _⟩ := h.elem it.pos.index _ _ (List.getElem?_eq_getElem (by omega))
      (List.getElem?_eq_getElem hlt)
    rw [hq, hh]
    simp only [c1, ok_bind, c2]
    refine ⟨_, rfl, ⟨?_, h2, ?_⟩, ?_⟩
    · show it.pos.index + 1 ≤ it.pos.hi; omega
    · rw [hr.pos.rest, List.tail_drop]; rfl
    · rw [List.tail_drop] at u2; exact u2

theorem nextBack_rel (h : ef.Holds data ps) {it : EfIter} {r : List Word} (hr : Rel ef data ps it r) :
    ∃ it', it.nextBack ef = .ok (it', r.getLast?) ∧ Rel ef data ps it' r.dropLast := by
  obtain ⟨up, u1, u2⟩ := SelIter.nextBack_rel h.up hr.up
  have h1 := hr.pos.le
  have h2 := hr.pos.hi
  have hp := h.plen
  have hlen := hr.pos.length
  have hlen' := (hr.gen h).length
  unfold nextBack
  rw [u1, ok_bind]
  simp only []
  by_cases he : it.pos.hi ≤ it.pos.index
  · have hr0 : r = [] := List.length_eq_zero_iff.mp (by omega)
    have hq : (ps.take it.pos.hi).drop it.pos.index = [] :=
      List.drop_eq_nil_of_le (by rw [List.length_take]; omega)
    rw [hq] at u2 ⊢
    refine ⟨⟨it.pos, up⟩, by rw [hr0]; rfl, ?_, ?_⟩
    · simpa [hr0] using hr.pos
    · rw [hq]; exact u2
  · obtain ⟨⟨i, b⟩, sel⟩ := it
    cases b with
    | none => simp [GenIter.hi] at he
    | some b =>
      have hrest := hr.pos.rest
      simp only [GenIter.hi] at *
      have hh : r.getLast? = some data[b] := by
        rw [List.getLast?_eq_getElem?, hlen, hrest, List.getElem?_drop, List.getElem?_take, if_pos (by omega),
          show i + (b + 1 - i - 1) = b by omega, List.getElem?_eq_getElem (by omega)]
      have hq : ((ps.take (b + 1)).drop i).getLast? = some ps[b] := by
        rw [List.getLast?_eq_getElem?, hlen', List.getElem?_drop, List.getElem?_take, if_pos (by omega),
          show i + (b + 1 - i - 1) = b by omega, List.getElem?_eq_getElem (by omega)]
      obtain ⟨c, c1, c2, _⟩ := h.elem b _ _ (List.getElem?_eq_getElem (by omega))
        (List.getElem?_eq_getElem (show b < data.length by omega))
      rw [hq, hh]
      simp only [unwrapR_some, ok_bind, c1, c2]
      refine ⟨_, rfl, ?_⟩
      have hhi : GenIter.hi ⟨i, if b = 0 then none else some (b - 1)⟩ = b := by
        unfold GenIter.hi
        by_cases hb : b = 0
        · simp [hb]
        · simp only [hb, if_false]; omega
      refine ⟨⟨?_, ?_, ?_⟩, ?_⟩
      · rw [hhi]; show i ≤ b; omega
      · rw [hhi]; omega
      · rw [hhi, List.dropLast_eq_take, hlen, hrest, List.take_drop, List.take_take,
          show min (i + (b + 1 - i - 1)) (b + 1) = b by omega]
      · simp only [hhi]
        rw [List.dropLast_eq_take, hlen', List.take_drop, List.take_take,
          show min (i + (b + 1 - i - 1)) (b + 1) = b by omega] at u2
        exact u2

theorem advanceBy_rel (h : ef.Holds data ps) {it : EfIter} {r : List Word} (hr : Rel ef data ps it r) (n : Nat) :
    (n ≤ r.length → ∃ it', it.advanceBy ef n = .ok (.ok it') ∧ Rel ef data ps it' (r.drop n)) ∧
    (r.length < n → it.pos.index + n < 2 ^ 64 → ∃ e, it.advanceBy ef n = .ok (.error e)) := by
  have hlt := h.lt
  obtain ⟨g1, g2⟩ := GenIter.advanceBy_rel (by omega) hr.pos n
  obtain ⟨k1, _⟩ := GenIter.advanceBy_rel (by rw [h.plen]; omega) (hr.gen h) n
  have hlen := hr.pos.length
  have hlen' := (hr.gen h).length
  unfold advanceBy
  constructor
  · intro hn
    obtain ⟨pos, p1, p2⟩ := g1 hn
    obtain ⟨pos', p1', p2'⟩ := k1 (by omega)
    rw [p1] at p1'
    injection p1' with p1'
    injection p1' with p1'
    subst p1'
    rw [p1, ok_bind]
    simp only []
    have hrest := p2'.rest
    by_cases h0 : n > 0
    · rw [if_pos h0]
      obtain ⟨up, u1, u2⟩ := SelIter.nth_rel h.up hr.up (n - 1)
      rw [show n - 1 + 1 = n by omega] at u2
      rw [u1, ok_bind]
      simp only []
      rw [List.getElem?_eq_getElem (by omega), unwrapR_some, ok_bind]
      refine ⟨_, rfl, p2, ?_⟩
      rw [hrest] at u2
      exact u2
    · rw [if_neg h0]
      have : n = 0 := by omega
      subst this
      refine ⟨_, rfl, p2, ?_⟩
      have hu := hr.up
      simp only [List.drop_zero] at hrest
      rw [hrest] at hu
      exact hu
  · intro hn hov
    obtain ⟨e, e1⟩ := g2 hn hov
    rw [e1, ok_bind]
    exact ⟨e, rfl⟩

theorem advanceBackBy_rel (h : ef.Holds data ps) {it : EfIter} {r : List Word} (hr : Rel ef data ps it r)
    (n : Nat) :
    (n ≤ r.length → ∃ it', it.advanceBackBy ef n = .ok (.ok it') ∧
      Rel ef data ps it' (r.take (r.length - n))) ∧
    (r.length < n → ∃ e, it.advanceBackBy ef n = .ok (.error e)) := by
  obtain ⟨g1, g2⟩ := GenIter.advanceBackBy_rel hr.pos n
  obtain ⟨k1, _⟩ := GenIter.advanceBackBy_rel (hr.gen h) n
  have hlen := hr.pos.length
  have hlen' := (hr.gen h).length
  unfold advanceBackBy
  constructor
  · intro hn
    obtain ⟨pos, p1, p2⟩ := g1 hn
    obtain ⟨pos', p1', p2'⟩ := k1 (by omega)
    rw [p1] at p1'
    injection p1' with p1'
    injection p1' with p1'
    subst p1'
    rw [p1, ok_bind]
    simp only []
    have hrest := p2'.rest
    by_cases h0 : n > 0
    · rw [if_pos h0]
      obtain ⟨up, u1, u2⟩ := SelIter.nthBack_rel h.up hr.up (n - 1) (Or.inl (by omega))
      rw [show n - 1 + 1 = n by omega] at u2
      rw [u1, ok_bind]
      simp only []
      rw [List.getElem?_eq_getElem (by simp only [List.length_reverse]; omega), unwrapR_some, ok_bind]
      refine ⟨_, rfl, p2, ?_⟩
      rw [hrest] at u2
      exact u2
    · rw [if_neg h0]
      have : n = 0 := by omega
      subst this
      refine ⟨_, rfl, p2, ?_⟩
      have hu := hr.up
      rw [Nat.sub_zero, List.take_length] at hrest
      rw [hrest] at hu
      exact hu
  · intro hn
    obtain ⟨e, e1⟩ := g2 hn
    rw [e1, ok_bind]
    exact ⟨e, rfl⟩

theorem nth_rel (h : ef.Holds data ps) {it : EfIter} {r : List Word} (hr : Rel ef data ps it r) {n : Nat}
    (hn : n ≤ r.length) : ∃ it', it.nth ef n = .ok (it', r[n]?) ∧ Rel ef data ps it' (r.drop (n + 1)) := by
  obtain ⟨it', g1, g2⟩ := (advanceBy_rel h hr n).1 hn
  obtain ⟨it'', k1, k2⟩ := next_rel h g2
  refine ⟨it'', ?_, ?_⟩
  · unfold nth; rw [g1, ok_bind]; simp only []; rw [k1, List.head?_drop]
  · rwa [List.tail_drop] at k2

theorem nth_beyond (h : ef.Holds data ps) {it : EfIter} {r : List Word} (hr : Rel ef data ps it r) {n : Nat}
    (hn : r.length < n) (hov : it.pos.index + n < 2 ^ 64) : it.nth ef n = .ok (it, none) := by
  obtain ⟨e, g⟩ := (advanceBy_rel h hr n).2 hn hov
  unfold nth; rw [g, ok_bind]; rfl

theorem next_index {it it' : EfIter} {x : Word} (h : it.next ef = .ok (it', some x)) :
    it'.pos.index = it.pos.index + 1 := by
  unfold next at h
  obtain ⟨p, _, h⟩ := bind_eq_ok.mp h
  split at h
  · obtain ⟨c, _, h⟩ := bind_eq_ok.mp h
    obtain ⟨y, _, h⟩ := bind_eq_ok.mp h
    injection h with h
    injection h with h _
    rw [← h]
  · injection h with h
    injection h with _ h
    cases h

theorem nth_overflow (hd : Profile.debug = true) {it : EfIter} {n : Nat} (hi : it.pos.index ≤ n) (hov : 2 ^ 64 ≤ it.pos.index + n) :
    it.nth ef n = .error .overflow := by
  unfold nth advanceBy GenIter.advanceBy
  rw [if_neg (by omega), addU_overflow hd hov]; rfl

theorem nthBack_rel (h : ef.Holds data ps) {it : EfIter} {r : List Word} (hr : Rel ef data ps it r) {n : Nat}
    (hn : n ≤ r.length) :
    ∃ it', it.nthBack ef n = .ok (it', r.reverse[n]?) ∧ Rel ef data ps it' (r.take (r.length - (n + 1))) := by
  obtain ⟨it', g1, g2⟩ := (advanceBackBy_rel h hr n).1 hn
  obtain ⟨it'', k1, k2⟩ := nextBack_rel h g2
  refine ⟨it'', ?_, ?_⟩
  · unfold nthBack; rw [g1, ok_bind]; simp only []; rw [k1]
    congr 2
    rw [List.getLast?_eq_getElem?, List.getElem?_take, List.length_take]
    by_cases hlt : n < r.length
    · rw [if_pos (by omega), List.getElem?_reverse hlt]; congr 1; omega
    · rw [if_neg (by omega), List.getElem?_eq_none (by simp; omega)]
  · rw [List.dropLast_eq_take, List.take_take, List.length_take] at k2
    rwa [show min (min (r.length - n) r.length - 1) (r.length - n) = r.length - (n + 1) by omega] at k2

theorem nthBack_beyond (h : ef.Holds data ps) {it : EfIter} {r : List Word} (hr : Rel ef data ps it r) {n : Nat}
    (hn : r.length < n) : it.nthBack ef n = .ok (it, none) := by
  obtain ⟨e, g⟩ := (advanceBackBy_rel h hr n).2 hn
  unfold nthBack; rw [g, ok_bind]; rfl

/-- `last` leaves out the offset `zero` -/
theorem last_rel (h : ef.Holds data ps) {it : EfIter} {r : List Word} (hr : Rel ef data ps it r) :
    it.last ef = .ok (r.getLast?.map (· - ef.zero)) := by
  have hl := SelIter.last_rel h.up hr.up
  have h1 := hr.pos.le
  have h2 := hr.pos.hi
  have hp := h.plen
  have hlen := hr.pos.length
  have hlen' := (hr.gen h).length
  unfold last GenIter.isEmpty
  rw [GenIter.isEmpty_eq]
  by_cases he : it.pos.hi ≤ it.pos.index
  · have : r = [] := List.length_eq_zero_iff.mp (by omega)
    simp [he, this]
  · simp only [he, decide_false, Bool.false_eq_true, if_false, hl, ok_bind]
    obtain ⟨⟨i, b⟩, sel⟩ := it
    cases b with
    | none => simp [GenIter.hi] at he
    | some b =>
      have hrest := hr.pos.rest
      simp only [GenIter.hi] at *
      have hh : r.getLast? = some data[b] := by
        rw [List.getLast?_eq_getElem?, hlen, hrest, List.getElem?_drop, List.getElem?_take, if_pos (by omega),
          show i + (b + 1 - i - 1) = b by omega, List.getElem?_eq_getElem (by omega)]
      have hq : ((ps.take (b + 1)).drop i).getLast? = some ps[b] := by
        rw [List.getLast?_eq_getElem?, hlen', List.getElem?_drop, List.getElem?_take, if_pos (by omega),
          show i + (b + 1 - i - 1) = b by omega, List.getElem?_eq_getElem (by omega)]
      obtain ⟨c, c1, _, c3⟩ := h.elem b _ _ (List.getElem?_eq_getElem (by omega))
        (List.getElem?_eq_getElem (show b < data.length by omega))
      rw [hq, hh]
      simp only [unwrapR_some, ok_bind, c1, c3]
      rfl

theorem step_rel (h : ef.Holds data ps) {it : EfIter} {r : List Word} (hr : Rel ef data ps it r)
    (op : IterOp) (hop : NthInRange r op) :
    ∃ it', step ef it op = .ok (it', (iterStep r op).1) ∧ Rel ef data ps it' (iterStep r op).2 := by
  cases op with
  | next => obtain ⟨it', g1, g2⟩ := next_rel h hr; exact ⟨it', by simp only [step]; rw [g1]; rfl, g2⟩
  | nextBack => obtain ⟨it', g1, g2⟩ := nextBack_rel h hr; exact ⟨it', by simp only [step]; rw [g1]; rfl, g2⟩
  | len => exact ⟨it, by simp only [step, len_rel h hr]; rfl, hr⟩
  | nth n => obtain ⟨it', g1, g2⟩ := nth_rel h hr hop; exact ⟨it', by simp only [step]; rw [g1]; rfl, g2⟩
  | nthBack n => obtain ⟨it', g1, g2⟩ := nthBack_rel h hr hop; exact ⟨it', by simp only [step]; rw [g1]; rfl, g2⟩

theorem execute_eq (h : ef.Holds data ps) : ∃ it, new ef = .ok it ∧
    ∀ ops : List IterOp, CallsOk NthInRange data ops →
      execute (step ef) it ops = .ok (iterRun data ops) ∧
      ∃ it', reach (step ef) it ops = .ok it' ∧ Rel ef data ps it' (iterRest data ops) := by
  obtain ⟨it, i1, i2⟩ := new_rel h
  refine ⟨it, i1, fun ops hops => ⟨?_, ?_⟩⟩
  · exact execute_of_sim (rel := Rel ef data ps) (fun _ _ op hr ho => step_rel h hr op ho) ops _ _ i2 hops
  · exact reach_of_sim (rel := Rel ef data ps) (fun _ _ op hr ho => step_rel h hr op ho) ops _ _ i2 hops

end EfIter
end Vers
