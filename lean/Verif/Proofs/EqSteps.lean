import Verif.Model.EqSteps
import Verif.Proofs.IterSteps
import Verif.Proofs.RsEq

/-! # The number of steps of the comparisons of rank/select vectors -/

set_option linter.unusedSimpArgs false

namespace Vers

variable [Profile]
open Counted Spec

namespace SelIter
variable {rs : RsVec} {zero : Bool}

/-- one call of `next` on a state that stands for `l` -/
theorem nextC_rel (h : rs.Inv) {it : SelIter} {l : List Nat} (hr : Rel rs zero it l) :
    ∃ it', (nextC rs zero it).result = .ok (it', l.head?) ∧ Rel rs zero it' l.tail ∧
      (nextC rs zero it).steps + 2 * due rs zero it' ≤ 6 + 2 * due rs zero it ∧
      (nextC rs zero it).steps ≤ 6 + 2 * (rs.supers.length - 1) ∧ (l = [] → (nextC rs zero it).steps = 0) := by
  obtain ⟨it', n1, n2⟩ := next_rel h hr
  obtain ⟨it1, o, d1, -, d3⟩ := nextC_due h hr.1
  have hres : (nextC rs zero it).result = .ok (it', l.head?) := by rw [nextC_result, n1]
  rw [hres] at d1
  cases d1
  refine ⟨it', hres, n2, d3, ?_⟩
  by_cases hc : ∃ x, it.nextRankBack = some x ∧ it.nextRank ≤ x
  · obtain ⟨x, hb, hx⟩ := hc
    have hk : it.nextRank < C rs.data (!zero) rs.len := Nat.lt_of_le_of_lt hx (hr.1 x hb).xlt
    obtain ⟨s, -, s2⟩ := RsVec.selectSuper_eq h zero hk
    obtain ⟨g1, g2, g3⟩ := hint_le h hk s2
    refine ⟨?_, ?_⟩
    · have : (nextC rs zero it).steps ≤
          2 * (upper rs zero (it.nextRank / 8192) - hint rs zero (it.nextRank / 8192)) + 6 := by
        unfold nextC
        rw [hb]
        simp only
        by_cases hz : it.nextRank ≥ (if zero then rs.rank0 else rs.rank1) ∨ it.nextRank > x
        · rw [if_pos hz]; exact Nat.zero_le _
        · rw [if_neg hz]
          refine Nat.le_trans (steps_bind_le _ _ (fwdLocateC_le h hk) fun t _ =>
            steps_tick_bind_le _ _ (n := 0) fun q _ => Nat.le_refl 0) (by omega)
      omega
    · rintro rfl
      obtain ⟨it2, p, m1, -⟩ := next_some h hr.1 hb hx
      rw [n1] at m1
      cases m1
  · have hn : ∀ x, it.nextRankBack = some x → x < it.nextRank := fun x hx =>
      Nat.lt_of_not_le fun hle => hc ⟨x, hx, hle⟩
    have hst : (nextC rs zero it).steps = 0 := by
      unfold nextC
      cases hb : it.nextRankBack with
      | none => rfl
      | some x =>
        simp only
        rw [if_pos (Or.inr (hn x hb))]; rfl
    exact ⟨by omega, fun _ => hst⟩

/-- a loop of calls ends without a panic -/
theorem callsC_ok (h : rs.Inv) : ∀ n (it : SelIter) (l : List Nat), Rel rs zero it l →
    ∃ r, (callsC rs zero n it).result = .ok r
  | 0, _, _, _ => ⟨[], rfl⟩
  | n + 1, it, l, hr => by
    obtain ⟨it', n1, n2, -⟩ := nextC_rel h hr
    obtain ⟨r, hr'⟩ := callsC_ok h n it' _ n2
    unfold callsC
    rw [bind_of n1, bind_of hr']
    exact ⟨_, rfl⟩

end SelIter

namespace RsVec
variable {rs other : RsVec} {zero : Bool}

theorem sparseLoopC_result (rs other : RsVec) (zero : Bool) : ∀ (fuel : Nat) (it : SelIter) (k : Nat),
    (sparseLoopC rs other zero fuel it k).result = sparseLoop rs other zero false fuel it k
  | 0, _, _ => rfl
  | fuel + 1, it, k => by
    unfold sparseLoopC sparseLoop
    rw [result_bind, SelIter.nextC_result]
    congr 1; funext p
    rcases p with ⟨it', _ | i⟩
    · rfl
    · simp only
      rw [result_bind]
      show other.getUnchecked i >>= _ = _
      congr 1; funext w
      rw [result_ite, result_bind]
      congr 1
      show other.rank zero i >>= _ = _
      congr 1; funext r
      rw [result_ite, sparseLoopC_result rs other zero fuel it' (k + 1)]
      rfl

theorem sparseEqualsC_result (zero : Bool) (rs other : RsVec) :
    (sparseEqualsC zero rs other).result = sparseEquals zero rs other := by
  unfold sparseEqualsC sparseEquals
  rw [result_ite, result_ite, result_bind]
  congr 1
  congr 1
  show SelIter.new rs zero >>= _ = _
  congr 1; funext it
  exact sparseLoopC_result rs other zero _ it 0

omit [Profile] in
theorem anyDiffC_result : ∀ l : List (Word × Word), (anyDiffC l).result = .ok (l.any fun p => p.1 != p.2)
  | [] => rfl
  | p :: l => by
    unfold anyDiffC
    rw [tick_of (y := pure (p.1 != p.2)) (a := (p.1 != p.2)) rfl, List.any_cons]
    cases (p.1 != p.2) with
    | true => rfl
    | false => exact anyDiffC_result l

omit [Profile] in
theorem fullEqualsC_result (rs other : RsVec) : (fullEqualsC rs other).result = fullEquals rs other := by
  unfold fullEqualsC fullEquals
  rw [result_ite, result_ite, result_bind]
  congr 1
  congr 1
  show prefixR rs.data _ >>= _ = _
  congr 1; funext a
  rw [result_bind]
  show prefixR other.data _ >>= _ = _
  congr 1; funext b
  rw [result_bind, anyDiffC_result, ok_bind, result_ite, result_ite, result_bind]
  congr 1
  congr 1
  show idx rs.data _ >>= _ = _
  congr 1; funext x
  rw [result_bind]
  rfl

theorem eqC_result (rs other : RsVec) : (eqC rs other).result = rs.eq other := by
  unfold eqC RsVec.eq
  rw [result_ite, result_ite, sparseEqualsC_result, sparseEqualsC_result, fullEqualsC_result]

/-! ## words -/

omit [Profile] in
theorem anyDiffC_le : ∀ l : List (Word × Word), (anyDiffC l).steps ≤ l.length
  | [] => Nat.le_refl _
  | p :: l => by
    unfold anyDiffC
    rw [tick_of (y := pure (p.1 != p.2)) (a := (p.1 != p.2)) rfl, List.length_cons]
    have := anyDiffC_le l
    cases (p.1 != p.2) with
    | true => show 1 + 0 ≤ _; omega
    | false => show 1 + (anyDiffC l).steps ≤ _; omega

omit [Profile] in
theorem anyDiffC_stops : ∀ (l : List (Word × Word)) (j : Nat) (x y : Word), l[j]? = some (x, y) → x ≠ y →
    (anyDiffC l).steps ≤ j + 1
  | [], _, _, _, h, _ => by cases h
  | p :: l, j, x, y, h, hne => by
    unfold anyDiffC
    rw [tick_of (y := pure (p.1 != p.2)) (a := (p.1 != p.2)) rfl]
    cases hp : (p.1 != p.2) with
    | true => show 1 + 0 ≤ _; omega
    | false =>
      cases j with
      | zero =>
        simp at h
        subst h
        simp at hp
        exact absurd hp hne
      | succ j =>
        have := anyDiffC_stops l j x y (by simpa using h) hne
        show 1 + (anyDiffC l).steps ≤ _
        omega

/-- nothing is counted if the lengths or counts differ -/
theorem rejected (h : rs.len ≠ other.len ∨ rs.rank0 ≠ other.rank0 ∨ rs.rank1 ≠ other.rank1) :
    (sparseEqualsC zero rs other).steps = 0 ∧ (fullEqualsC rs other).steps = 0 := by
  unfold sparseEqualsC fullEqualsC
  by_cases hl : rs.len ≠ other.len
  · rw [if_pos hl, if_pos hl]; exact ⟨rfl, rfl⟩
  · rw [if_neg hl, if_neg hl]
    have hr := h.resolve_left hl
    rw [if_pos hr, if_pos hr]; exact ⟨rfl, rfl⟩

/-- `full_equals` compares each word at most once, and none after the first difference -/
theorem fullEqualsC_steps (h : rs.Inv) (h' : other.Inv) :
    (fullEqualsC rs other).steps ≤ (rs.len + 63) / 64 ∧
      ∀ p, rs.intoBitVec.bits[p]? ≠ other.intoBitVec.bits[p]? → (fullEqualsC rs other).steps ≤ p / 64 + 1 := by
  by_cases hrej : rs.len ≠ other.len ∨ rs.rank0 ≠ other.rank0 ∨ rs.rank1 ≠ other.rank1
  · rw [(rejected (zero := false) hrej).2]
    exact ⟨Nat.zero_le _, fun _ _ => Nat.zero_le _⟩
  · have hl : rs.len = other.len := Classical.byContradiction fun hc => hrej (Or.inl hc)
    have hwf := h.wf
    have hwf' := h'.wf
    unfold fullEqualsC
    rw [if_neg (fun hc => hrej (Or.inl hc)), if_neg (fun hc => hrej (Or.inr hc)),
      free_of (prefixR_of_le (l := rs.data) (n := rs.len / 64) (by omega)),
      free_of (prefixR_of_le (l := other.data) (n := other.len / 64) (by omega)),
      bind_of (anyDiffC_result _)]
    have h1 := anyDiffC_le ((rs.data.take (rs.len / 64)).zip (other.data.take (other.len / 64)))
    rw [List.length_zip, List.length_take, List.length_take] at h1
    have hrest : ∀ d : Bool, (if d then (pure false : Counted Bool)
        else if rs.len % 64 ≠ 0 then do
          let x ← tick (idx rs.data (rs.len / 64))
          let y ← free (idx other.data (rs.len / 64))
          let m : Word := (1#64 <<< (rs.len % 64)) - 1#64
          let m' : Word := (1#64 <<< (other.len % 64)) - 1#64
          pure (x &&& m == y &&& m')
        else pure true).steps ≤ if d then 0 else if rs.len % 64 ≠ 0 then 1 else 0 := by
      intro d
      cases d with
      | true => exact Nat.le_refl _
      | false =>
        simp only [Bool.false_eq_true, if_false]
        by_cases hm : rs.len % 64 ≠ 0
        · rw [if_pos hm, if_pos hm, tick_of (idx_of_lt (show rs.len / 64 < rs.data.length by omega)),
            free_of (idx_of_lt (show rs.len / 64 < other.data.length by omega))]
          exact Nat.le_refl _
        · rw [if_neg hm, if_neg hm]; exact Nat.le_refl _
    refine ⟨?_, fun p hp => ?_⟩
    · refine Nat.le_trans (Nat.add_le_add h1 (hrest _)) ?_
      split
      · omega
      · split <;> omega
    · have hpl : p < rs.len := by
        refine Decidable.byContradiction fun hc => hp ?_
        rw [List.getElem?_eq_none (by rw [BV.length_bits]; show rs.len ≤ p; omega),
          List.getElem?_eq_none (by rw [BV.length_bits]; show other.len ≤ p; omega)]
      by_cases hw : p / 64 < rs.len / 64
      · have hx : rs.data[p / 64]? ≠ other.data[p / 64]? := by
          intro hc
          refine hp ?_
          rw [BV.bits_getElem?, BV.bits_getElem?, if_pos (show p < rs.intoBitVec.len from hpl),
            if_pos (show p < other.intoBitVec.len by show p < other.len; omega)]
          show some (lbit rs.data p) = some (lbit other.data p)
          have e : p = 64 * (p / 64) + p % 64 := by omega
          rw [e, lbit_word (by omega), lbit_word (by omega), hc]
        have e1 := List.getElem?_eq_getElem (l := rs.data) (i := p / 64) (by omega)
        have e2 := List.getElem?_eq_getElem (l := other.data) (i := p / 64) (by omega)
        rw [e1, e2] at hx
        have hz : ((rs.data.take (rs.len / 64)).zip (other.data.take (other.len / 64)))[p / 64]? =
            some (rs.data[p / 64]'(by omega), other.data[p / 64]'(by omega)) := by
          rw [List.getElem?_zip_eq_some]
          rw [List.getElem?_take, List.getElem?_take, if_pos hw, if_pos (by omega)]
          exact ⟨e1, e2⟩
        have hne : rs.data[p / 64]'(by omega) ≠ other.data[p / 64]'(by omega) := fun hc => hx (by rw [hc])
        have hs := anyDiffC_stops _ _ _ _ hz hne
        have hany : ((rs.data.take (rs.len / 64)).zip (other.data.take (other.len / 64))).any
            (fun p => p.1 != p.2) = true := by
          rw [List.any_eq_true]
          exact ⟨_, List.mem_of_getElem? hz, by simpa using hne⟩
        refine Nat.le_trans (Nat.add_le_add hs (hrest _)) ?_
        rw [hany, if_pos rfl]

      · refine Nat.le_trans (Nat.add_le_add h1 (hrest _)) ?_
        split
        · omega
        · split <;> omega

/-! ## positions -/

/-- the loop of `sparse_equals` on a state that stands for `l` -/
theorem sparseLoopC_steps (h : rs.Inv) (h' : other.Inv) (hlen : rs.len = other.len) :
    ∀ (fuel : Nat) (it : SelIter) (k : Nat) (l : List Nat), SelIter.Rel rs zero it l → l.length < fuel →
      (∀ p, p ∈ l → p < rs.len) →
      (sparseLoopC rs other zero fuel it k).steps ≤ 8 * l.length + 2 * SelIter.due rs zero it ∧
      (sparseLoopC rs other zero fuel it k).steps ≤ (8 + 2 * (rs.supers.length - 1)) * l.length ∧
      (∀ j p, l[j]? = some p → ¬(lbit other.data p = !zero ∧ C other.data (!zero) p = k + j) →
        (sparseLoopC rs other zero fuel it k).steps ≤ (8 + 2 * (rs.supers.length - 1)) * (j + 1)) ∧
      ((∀ i p, l[i]? = some p → lbit other.data p = !zero ∧ C other.data (!zero) p = k + i) →
        (sparseLoopC rs other zero fuel it k).steps = (SelIter.callsC rs zero l.length it).steps + 2 * l.length) := by
  intro fuel
  induction fuel with
  | zero => intro it k l _ hf; omega
  | succ fuel ih =>
    intro it k l hr hf hm
    unfold sparseLoopC
    obtain ⟨it', g1, g2, g3, g4, g5⟩ := SelIter.nextC_rel h hr
    rw [bind_of g1]
    cases l with
    | nil =>
      have g5 := g5 rfl
      show _ + 0 ≤ _ ∧ _ + 0 ≤ _ ∧ _ ∧ (_ → _ + 0 = 0 + 0)
      rw [g5]
      exact ⟨Nat.zero_le _, Nat.zero_le _, fun _ _ hj => by simp at hj, fun _ => rfl⟩
    | cons p l =>
      simp only [List.head?_cons, List.tail_cons] at g2 ⊢
      have hp : p < rs.len := hm p (by simp)
      have hwf := h'.wf
      have e1 : ((b2w (lbit other.data p) == 0#64) != zero) = true ↔ ¬ lbit other.data p = !zero := by
        cases lbit other.data p <;> cases zero <;> decide
      have hmul : ∀ j, (8 + 2 * (rs.supers.length - 1)) * (j + 1) =
          (8 + 2 * (rs.supers.length - 1)) * j + (8 + 2 * (rs.supers.length - 1)) := fun j => Nat.mul_succ _ _
      rw [tick_of (getUnchecked_eq (show p < 64 * other.data.length by omega))]
      by_cases hb : ((b2w (lbit other.data p) == 0#64) != zero) = true
      · rw [if_pos hb]
        show _ + (1 + 0) ≤ _ ∧ _ + (1 + 0) ≤ _ ∧ (∀ j q, _ → _ → _ + (1 + 0) ≤ _) ∧ (_ → _)
        refine ⟨by rw [List.length_cons]; omega, by rw [List.length_cons, hmul]; omega,
          fun j q _ _ => by rw [hmul]; omega, fun hall => absurd (hall 0 p (by simp)).1 (e1.mp hb)⟩
      · rw [if_neg hb, tick_of (rank_eq h' zero p), Nat.min_eq_left (by omega)]
        have hb' : lbit other.data p = !zero := by
          rcases Classical.em (lbit other.data p = !zero) with h | h
          · exact h
          · exact absurd (e1.mpr h) hb
        by_cases hk : C other.data (!zero) p ≠ k
        · rw [if_pos hk]
          show _ + (1 + (1 + 0)) ≤ _ ∧ _ + (1 + (1 + 0)) ≤ _ ∧ (∀ j q, _ → _ → _ + (1 + (1 + 0)) ≤ _) ∧ (_ → _)
          refine ⟨by rw [List.length_cons]; omega, by rw [List.length_cons, hmul]; omega,
            fun j q _ _ => by rw [hmul]; omega, fun hall => absurd (hall 0 p (by simp)).2 (by omega)⟩
        · rw [if_neg hk]
          obtain ⟨i1, i2, i3, i4⟩ := ih it' (k + 1) l g2 (by simp at hf; omega) (fun q hq => hm q (by simp [hq]))
          refine ⟨?_, ?_, fun j q hj hbad => ?_, fun hall => ?_⟩
          · show _ + (1 + (1 + _)) ≤ _
            rw [List.length_cons]; omega
          · show _ + (1 + (1 + _)) ≤ _
            rw [List.length_cons, hmul]; omega
          · show _ + (1 + (1 + _)) ≤ _
            cases j with
            | zero =>
              simp at hj
              subst hj
              exact absurd ⟨hb', by omega⟩ hbad
            | succ j =>
              have := i3 j q (by simpa using hj) (fun hc => hbad ⟨hc.1, by omega⟩)
              rw [hmul]; omega
          · have := i4 fun i q hq => by
              have := hall (i + 1) q (by simpa using hq)
              exact ⟨this.1, by omega⟩
            obtain ⟨r, hr'⟩ := SelIter.callsC_ok h l.length it' _ g2
            rw [List.length_cons]
            unfold SelIter.callsC
            rw [bind_of g1, bind_of hr']
            show _ + (1 + (1 + _)) = _ + (_ + 0) + _
            omega

omit [Profile] in
theorem supers_le (h : rs.Inv) : rs.supers.length - 1 ≤ rs.len / 8192 := by
  have hwf := h.wf
  have hsl := h.slen
  omega

/-- `sparse_equals` on two vectors of the same length with the same counts -/
theorem sparseEqualsC_steps (h : rs.Inv) (h' : other.Inv) :
    (sparseEqualsC zero rs other).steps ≤ 8 * C rs.data (!zero) rs.len + 2 * rs.len + 1 ∧
    (sparseEqualsC zero rs other).steps ≤ (8 + 2 * (rs.len / 8192)) * C rs.data (!zero) rs.len + 1 ∧
    (∀ p, p < rs.len → (∀ i, i < p → lbit rs.data i = lbit other.data i) → lbit rs.data p ≠ lbit other.data p →
      (sparseEqualsC zero rs other).steps ≤ (8 + 2 * (rs.len / 8192)) * (C rs.data (!zero) p + 1) + 1) ∧
    (rs.intoBitVec.bits = other.intoBitVec.bits → ∀ it, SelIter.new rs zero = .ok it →
      (sparseEqualsC zero rs other).steps =
        (SelIter.callsC rs zero (C rs.data (!zero) rs.len) it).steps + 2 * C rs.data (!zero) rs.len + 1) := by
  by_cases hrej : rs.len ≠ other.len ∨ rs.rank0 ≠ other.rank0 ∨ rs.rank1 ≠ other.rank1
  · rw [(rejected hrej).1]
    refine ⟨Nat.zero_le _, Nat.zero_le _, fun _ _ _ _ => Nat.zero_le _, fun he => ?_⟩
    obtain ⟨e1, e2, e3⟩ := ranks_of_bits_eq h h' he
    rcases hrej with hc | hc | hc
    · exact absurd e1 hc
    · exact absurd e2 hc
    · exact absurd e3 hc
  · have hl : rs.len = other.len := Classical.byContradiction fun hc => hrej (Or.inl hc)
    have hcount : C rs.data (!zero) rs.len = C other.data (!zero) rs.len := by
      have h0 : rs.rank0 = other.rank0 := Classical.byContradiction fun hx => hrej (Or.inr (Or.inl hx))
      have h1 : rs.rank1 = other.rank1 := Classical.byContradiction fun hx => hrej (Or.inr (Or.inr hx))
      rw [h.r0, h'.r0] at h0
      rw [h.r1, h'.r1] at h1
      rw [← hl] at h0 h1
      cases zero
      · exact h1
      · exact h0
    have hS := supers_le h
    have hfac : 8 + 2 * (rs.supers.length - 1) ≤ 8 + 2 * (rs.len / 8192) := by omega
    obtain ⟨it, i1, i2, -⟩ := SelIter.new_rel (zero := zero) h
    have hpl : (positions (!zero) rs.intoBitVec.bits).length = C rs.data (!zero) rs.len :=
      SelIter.length_positions_eq zero
    obtain ⟨s1, s2, s3, s4⟩ := sparseLoopC_steps (zero := zero) h h' hl
      ((if zero then rs.rank0 else rs.rank1) + 1) it 0 _ i2
      (by
        rw [hpl]
        cases zero
        · rw [if_neg (by decide), h.r1]; exact Nat.lt_succ_self _
        · rw [if_pos rfl, h.r0]; exact Nat.lt_succ_self _)
      (fun p hp => by have := mem_positions_lt hp; simpa [intoBitVec] using this)
    have hd := SelIter.due_le h i2.1
    rw [hpl] at s1 s2 s4
    unfold sparseEqualsC
    rw [if_neg (fun hc => hrej (Or.inl hc)), if_neg (fun hc => hrej (Or.inr hc)), tick_of i1]
    refine ⟨?_, ?_, fun p hp hpre hne => ?_, fun he it' hit => ?_⟩
    · show 1 + _ ≤ _
      omega
    · show 1 + _ ≤ _
      have := Nat.mul_le_mul_right (C rs.data (!zero) rs.len) hfac
      omega
    · show 1 + _ ≤ _
      have hpc : C rs.data (!zero) p = C other.data (!zero) p := C_congr hpre _
      have hmono := C_mono other.data (!zero) (i := p + 1) (j := rs.len) (by omega)
      have hsucc : ∀ d : List Word, C d (!zero) (p + 1) = C d (!zero) p + if lbit d p = !zero then 1 else 0 := by
        intro d
        unfold C
        rw [cnt_succ]
        by_cases hb : lbit d p = !zero
        · simp [hb]
        · simp [hb]
      have := Nat.mul_le_mul_right (C rs.data (!zero) p + 1) hfac
      suffices ∃ q, (positions (!zero) rs.intoBitVec.bits)[C rs.data (!zero) p]? = some q ∧
          ¬(lbit other.data q = !zero ∧ C other.data (!zero) q = 0 + C rs.data (!zero) p) by
        obtain ⟨q, q1, q2⟩ := this
        have := s3 _ q q1 q2
        omega
      by_cases hb : lbit rs.data p = !zero
      · refine ⟨p, positions_getElem? (SelIter.isSelect_of_isPos ⟨hb, rfl⟩ hp), fun hc => hne ?_⟩
        rw [hb, hc.1]
      · have ho : lbit other.data p = !zero := by
          cases h1 : lbit rs.data p <;> cases h2 : lbit other.data p <;> rw [h1] at hb hne <;> rw [h2] at hne <;>
            cases zero <;> simp at hb hne ⊢
        have e1 := hsucc other.data
        rw [if_pos ho] at e1
        obtain ⟨q, -, q2, q3⟩ := select_eq h zero (r := C rs.data (!zero) p) (by omega)
        refine ⟨q, SelIter.positions_of_pos (by omega) q2, fun hc => ?_⟩
        have hpq : p < q := by
          refine Decidable.byContradiction fun hle => ?_
          by_cases hqp : q = p
          · rw [hqp] at q2; exact hb q2.1
          · have e2 : C rs.data (!zero) (q + 1) = C rs.data (!zero) q + 1 := by
              unfold C; rw [cnt_succ, q2.1]; simp
            have e3 := C_mono rs.data (!zero) (i := q + 1) (j := p) (by omega)
            have e4 : C rs.data (!zero) q = C rs.data (!zero) p := q2.2
            omega
        have e2 := C_mono other.data (!zero) (i := p + 1) (j := q) (by omega)
        have e3 := hc.2
        omega
    · rw [i1] at hit
      cases hit
      show 1 + _ = _
      rw [s4 ?_]
      · omega
      · have hall := (bits_eq_iff_lbit hl).mp he
        intro i p hp
        have hpl' : p < rs.len := by
          have := mem_positions_lt (List.mem_of_getElem? hp)
          simpa [intoBitVec] using this
        have hi : i < C rs.data (!zero) rs.len := by
          rw [← hpl]
          exact (List.getElem?_eq_some_iff.mp hp).1
        obtain ⟨q, -, q2, q3⟩ := select_eq h zero hi
        have := SelIter.positions_of_pos hi q2
        rw [hp] at this
        cases this
        refine ⟨by rw [← hall p hpl']; exact q2.1, ?_⟩
        rw [← C_congr (fun j hj => hall j (by omega)), q2.2, Nat.zero_add]

end RsVec
end Vers
