import Verif.Proofs.Ends
import Verif.Model.EliasFanoIter

/-!
# Termination of the Elias-Fano code
-/

set_option linter.unusedSimpArgs false

namespace Vers

variable [Profile]
open Spec

namespace EF
open RsVec

theorem lowAt_ends (ef : EF) (i : Nat) : Ends (ef.lowAt i) := by
  unfold lowAt mulU BV.getBitsUnchecked BV.getBitsRaw; ends [wrapR_ends, dassertR_ends, idx_ends, addU_ends]

theorem addW_ends (a b : Word) : Ends (addW a b) := by unfold addW; ends [wrapR_ends]
theorem subW_ends (a b : Word) : Ends (subW a b) := by unfold subW; ends [wrapR_ends]
omit [Profile] in
theorem dirIdx_ends (u : Bool) (a b : Nat) : Ends (dirIdx u a b) := by unfold dirIdx; ends []

theorem getUnchecked_ends {ef : EF} (hf : Fits ef.upper) (i : Nat) : Ends (ef.getUnchecked i) := by
  unfold getUnchecked; ends [select_ends hf, subR_ends, lowAt_ends, addW_ends]

theorem get_ends {ef : EF} (hf : Fits ef.upper) (i : Nat) : Ends (ef.get i) := by
  unfold get; ends [getUnchecked_ends hf]

theorem deltaFar_ends {ef : EF} (hf : Fits ef.upper) (i u : Nat) : Ends (ef.deltaFar i u) := by
  unfold deltaFar; ends [select_ends hf, subR_ends, lowAt_ends, addW_ends, subW_ends]

theorem delta_ends {ef : EF} (hf : Fits ef.upper) (i : Nat) : Ends (ef.delta i) := by
  unfold delta; ends [select_ends hf, subR_ends, lowAt_ends, RsVec.getUnchecked_ends, subW_ends, deltaFar_ends hf]

theorem lowAt_wrap {ef : EF} (h1 : 1 ≤ ef.lowerLen) (h2 : ef.lowerLen < 64) (hl : ef.lower.data.length < 2 ^ 57) :
    ∃ e, ef.lowAt (2 ^ 64 - 1) = .error e ∧ e ≠ .fuel := by
  have key : ∀ p, 2 ^ 63 ≤ p → ∃ e, ef.lower.getBitsUnchecked p ef.lowerLen = .error e ∧ e ≠ .fuel := by
    intro p hp
    unfold BV.getBitsUnchecked BV.getBitsRaw
    rw [dassertR_true (by omega), ok_bind, idx_of_ge (by omega)]
    exact ⟨_, rfl, by decide⟩
  unfold lowAt mulU
  split
  · exact key _ (by omega)
  · unfold wrapR
    split
    · exact ⟨_, rfl, by decide⟩
    · refine key _ ?_
      have : (2 ^ 64 - 1) * ef.lowerLen = (ef.lowerLen - 1) * 2 ^ 64 + (2 ^ 64 - ef.lowerLen) := by omega
      rw [this, Nat.mul_comm, Nat.mul_add_mod, Nat.mod_eq_of_lt (by omega)]
      omega

theorem binWalk_ends {ef : EF} (h1 : 1 ≤ ef.lowerLen) (h2 : ef.lowerLen < 64) (hl : ef.lower.data.length < 2 ^ 57)
    (ql : Word) : ∀ fuel c, c < fuel → Ends (ef.binWalk true ql fuel c)
  | 0, c, h => by omega
  | fuel + 1, 0, h => by
    obtain ⟨e, he, hne⟩ := lowAt_wrap h1 h2 hl
    unfold binWalk dirIdx
    simp only [Bool.not_true, Bool.false_eq_true, if_false, Nat.le_zero, Nat.one_ne_zero, ok_bind, Nat.add_zero, he]
    exact ⟨fun h => hne (by cases h; rfl)⟩
  | fuel + 1, c + 1, h => by
    have ih := binWalk_ends h1 h2 hl ql fuel c (by omega)
    unfold binWalk dirIdx
    simp only [Bool.not_true, Bool.false_eq_true, if_false, Nat.le_add_left, if_true, ok_bind, Nat.add_sub_cancel]
    ends [lowAt_ends, ih]

theorem binHit_ends {ef : EF} {index up : Bool} (hi : index = true → up = true)
    (h1 : 1 ≤ ef.lowerLen) (h2 : ef.lowerLen < 64) (hl : ef.lower.data.length < 2 ^ 57)
    (ql m : Word) (mid : Nat) (x : Word) : Ends (ef.binHit index up ql m mid x) := by
  unfold binHit
  split
  · rename_i h
    rw [hi h]
    have := binWalk_ends h1 h2 hl ql (mid + 1) mid (by omega)
    ends [this]
  · exact addW_ends ..

/-- With a nonzero upper bound the interval shrinks in every step, whatever is read. -/
theorem binLoop_ends {ef : EF} {index up : Bool} (hi : index = true → up = true)
    (h1 : 1 ≤ ef.lowerLen) (h2 : ef.lowerLen < 64) (hl : ef.lower.data.length < 2 ^ 57)
    (ql m : Word) : ∀ fuel lb ub lc, 1 ≤ ub → ub - lb < fuel → Ends (ef.binLoop index up ql m fuel lb ub lc)
  | 0, lb, ub, lc, h, hf => by omega
  | fuel + 1, lb, ub, lc, h, hf => by
    unfold binLoop
    rw [subR_of_le h, ok_bind]
    by_cases c : lb < ub - 1
    · rw [if_pos c, subR_of_le (show lb ≤ ub by omega), ok_bind]
      have ih1 := fun lc => binLoop_ends hi h1 h2 hl ql m fuel lb (lb + (ub - lb) / 2) lc (by omega) (by omega)
      have ih2 := fun lc => binLoop_ends hi h1 h2 hl ql m fuel (lb + (ub - lb) / 2) ub lc (by omega) (by omega)
      ends [lowAt_ends, ih1, ih2, binHit_ends hi h1 h2 hl]
    · rw [if_neg c]; exact Ends.pure _

/-- With the upper bound 0 the subtractions overflow; the interval `lb..2^64` shrinks unless `lb` is 0. -/
theorem binLoop_ends_zero {ef : EF} {index up : Bool} (hi : index = true → up = true)
    (h1 : 1 ≤ ef.lowerLen) (h2 : ef.lowerLen < 64) (hl : ef.lower.data.length < 2 ^ 57)
    (ql m : Word) : ∀ fuel lb lc, 1 ≤ lb → 2 ^ 64 - lb < fuel → Ends (ef.binLoop index up ql m fuel lb 0 lc)
  | 0, lb, lc, h, hf => by omega
  | fuel + 1, lb, lc, h, hf => by
    unfold binLoop
    cases hd : Profile.debug
    · have e1 : subR 0 1 = .ok (2 ^ 64 - 1) := by
        unfold subR; rw [if_neg (by omega), wrapR_release hd]
      rw [e1, ok_bind]
      by_cases c : lb < 2 ^ 64 - 1
      · have e2 : subR 0 lb = .ok (2 ^ 64 - lb) := by
          unfold subR; rw [if_neg (by omega), wrapR_release hd]
          congr 1; omega
        rw [if_pos c, e2, ok_bind]
        have ih1 := fun lc => binLoop_ends hi h1 h2 hl ql m fuel lb (lb + (2 ^ 64 - lb) / 2) lc (by omega) (by omega)
        have ih2 := fun lc => binLoop_ends_zero hi h1 h2 hl ql m fuel (lb + (2 ^ 64 - lb) / 2) lc (by omega) (by omega)
        ends [lowAt_ends, ih1, ih2, binHit_ends hi h1 h2 hl]
      · rw [if_neg c]; exact Ends.pure _
    · rw [subR_overflow hd (by omega)]
      exact Ends.overflow


theorem binLoop_ends_debug {ef : EF} (hd : Profile.debug = true) {index up : Bool} (ql m : Word) (fuel lb : Nat) (lc : Word) :
    Ends (ef.binLoop index up ql m (fuel + 1) lb 0 lc) := by
  unfold binLoop
  rw [subR_overflow hd (by omega)]
  exact Ends.overflow

omit [Profile] in
theorem exists_bound (r : R Nat) : ∃ b, ∀ x, r = .ok x → x < b := by
  cases r with
  | error e => exact ⟨0, fun x h => by cases h⟩
  | ok y => exact ⟨y + 1, fun x h => by cases h; omega⟩

theorem blockEnd_ends {ef : EF} (hf : Fits ef.upper) (up : Bool) (q : Nat) : Ends (ef.blockEnd up q) := by
  unfold blockEnd; ends [select_ends hf, subR_ends]

theorem binTail_ends (ef : EF) (index up : Bool) (m : Word) (fb : Nat) (lc : Word) : Ends (ef.binTail index up m fb lc) := by
  unfold binTail; ends [dirIdx_ends, addW_ends]

theorem binFinish_ends (ef : EF) (index up : Bool) (ql m : Word) (be fb : Nat) (lc : Word) :
    Ends (ef.binFinish index up ql m be fb lc) := by
  unfold binFinish; ends [dirIdx_ends, addW_ends, lowAt_ends, binTail_ends]

/-- The budget `b` covers the block: the binary search for `queryUpper` starting at `sl` needs no more steps. -/
structure Covers (ef : EF) (up : Bool) (q sl b : Nat) : Prop where
  be : ∀ be, ef.blockEnd up q = .ok be → be < b
  sl : sl < b
  wrap : 2 ^ 64 < b

theorem binSearch_ends {ef : EF} (hf : Fits ef.upper) {index up : Bool} (hi : index = true → up = true)
    (h1 : 1 ≤ ef.lowerLen) (h2 : ef.lowerLen < 64) (hl : ef.lower.data.length < 2 ^ 57)
    {sl q b : Nat} (hb : Covers ef up q sl b) (ql m : Word) {c : Nat} (hc : 2 ≤ c)
    (hz : up = true ∨ Profile.debug = true ∨ c - 1 ≠ sl) (hc4 : c ≤ 2 ^ 63) (lc : Word) :
    Ends (ef.binSearch index up sl q ql m c lc (binB := b)) := by
  obtain ⟨b, rfl⟩ : ∃ b', b = b' + 1 := ⟨b - 1, by have := hb.sl; omega⟩
  have hw := hb.wrap
  have hs := hb.sl
  unfold binSearch
  refine Ends.bind (blockEnd_ends hf ..) (fun be hbe => ?_)
  have hbe := hb.be be hbe
  refine Ends.bind (dirIdx_ends ..) (fun an han => ?_)
  refine Ends.bind ?_ (fun r _ => ?_)
  · cases up with
    | true =>
      unfold dirIdx at han
      simp only [if_true, Except.ok.injEq] at han ⊢
      rcases Nat.eq_zero_or_pos be with h0 | h0
      · rw [h0]
        exact binLoop_ends_zero hi h1 h2 hl _ _ _ _ _ (by omega) (by omega)
      · exact binLoop_ends hi h1 h2 hl _ _ _ _ _ _ h0 (by omega)
    | false =>
      simp only [Bool.false_eq_true, if_false]
      rcases Nat.eq_zero_or_pos an with h0 | h0
      · rw [h0]
        rcases hz with hz | hz | hz
        · cases hz
        · exact binLoop_ends_debug hz ..
        · exfalso
          unfold dirIdx at han
          simp only [Bool.false_eq_true, if_false] at han
          split at han
          · cases han; omega
          · cases han; omega
      · refine binLoop_ends hi h1 h2 hl _ _ _ _ _ _ h0 ?_
        unfold dirIdx at han
        simp only [Bool.false_eq_true, if_false] at han
        split at han
        · cases han; omega
        · cases han; omega
  · ends [binFinish_ends]

omit [Profile] in
theorem lowMask_zero : BV.lowMask 0 = 0#64 := by decide

theorem lowAt_width_zero {ef : EF} (h : ef.lowerLen = 0) {i : Nat} {x : Word} (hx : ef.lowAt i = .ok x) : x = 0#64 := by
  unfold lowAt at hx
  rw [h, mulU_of_lt (by omega), ok_bind] at hx
  unfold BV.getBitsUnchecked BV.getBitsRaw at hx
  rw [dassertR_true (by omega), ok_bind] at hx
  obtain ⟨w, _, hx⟩ := bind_eq_ok.mp hx
  rw [addU_of_lt (by omega), ok_bind, if_pos (by omega)] at hx
  cases hx
  rw [lowMask_zero]
  exact BitVec.and_zero

theorem linear_ends {ef : EF} (hf : Fits ef.upper) {index up : Bool} (hi : index = true → up = true)
    (h2 : ef.lowerLen < 64) (hl : ef.lower.data.length < 2 ^ 57)
    (hz : up = true ∨ Profile.debug = true ∨ ef.lowAt 0 = .ok 0#64) (su : Nat)
    {sl q b : Nat} (hb : Covers ef up q sl b) (ql m : Word) (h0 : ef.lowerLen = 0 → ql = 0#64) :
    ∀ fuel c lc, (fuel = 0 → 1 ≤ ef.lowerLen ∧ 2 ≤ c ∧ (up = true ∨ Profile.debug = true ∨ c - 1 ≠ sl)) →
      1 ≤ c → c + fuel ≤ 2 ^ 63 →
      Ends (ef.linear index up su sl q ql m (ef.upper.supers.length + 1) b fuel c lc)
  | 0, c, lc, h, hc, hc4 => by
    unfold linear
    exact binSearch_ends hf hi (h rfl).1 h2 hl hb ql m (h rfl).2.1 (h rfl).2.2 (by omega) lc
  | fuel + 1, c, lc, h, hc, hc4 => by
    have ih := linear_ends hf hi h2 hl hz su hb ql m h0 fuel (c + 1)
    unfold linear
    refine Ends.bind (dirIdx_ends ..) (fun p _ => Ends.bind (RsVec.getUnchecked_ends ..) (fun bit _ => ?_))
    refine Ends.ite (fun _ => ?_) (fun _ => by ends [addW_ends])
    refine Ends.bind (dirIdx_ends ..) (fun p' hp' => Ends.bind (lowAt_ends ..) (fun x hx => ?_))
    split
    · ends [addW_ends]
    · rename_i g1
      split
      · ends [addW_ends]
      · rename_i g2
        refine ih x (fun hfu => ⟨?_, by omega, ?_⟩) (by omega) (by omega)
        · rcases Nat.eq_zero_or_pos ef.lowerLen with hz0 | hz0
          · exact absurd ((lowAt_width_zero hz0 hx).trans (h0 hz0).symm) g2
          · exact hz0
        · rcases hz with hz | hz | hz
          · exact Or.inl hz
          · exact Or.inr (Or.inl hz)
          · cases up with
            | true => exact Or.inl rfl
            | false =>
              refine Or.inr (Or.inr (fun he => ?_))
              unfold dirIdx at hp'
              simp only [Bool.false_eq_true, if_false] at hp'
              rw [if_pos (by omega)] at hp'
              cases hp'
              rw [show sl - c = 0 by omega, hz] at hx
              cases hx
              apply g2
              have : ¬ (0#64 < ql) := fun hlt => g1 (Or.inr ⟨rfl, hlt⟩)
              have : ql.toNat = 0 := by
                rw [BitVec.lt_def] at this
                simp only [BitVec.toNat_ofNat] at this
                omega
              exact BitVec.eq_of_toNat_eq (by simp [this])

theorem searchOutside_ends {ef : EF} (hf : Fits ef.upper) (index up : Bool) (sl : Nat) :
    Ends (ef.searchOutside index up sl) := by
  unfold searchOutside; ends [dirIdx_ends, getUnchecked_ends hf]

theorem search_ends {ef : EF} (hf : Fits ef.upper) {index up : Bool} (hi : index = true → up = true)
    (h2 : ef.lowerLen < 64) (hl : ef.lower.data.length < 2 ^ 57)
    (hz : up = true ∨ Profile.debug = true ∨ ef.lowAt 0 = .ok 0#64) (su : Nat)
    {sl q b : Nat} (hb : Covers ef up q sl b) (n ql m : Word) (h0 : ef.lowerLen = 0 → ql = 0#64) :
    Ends (ef.search index up su sl n q ql m (binB := b)) := by
  have := fun lc => linear_ends hf hi h2 hl hz su hb ql m h0 3 1 lc (by omega) (by omega) (by omega)
  unfold search
  ends [dirIdx_ends, RsVec.getUnchecked_ends, lowAt_ends, searchOutside_ends hf, this]

omit [Profile] in
theorem queryLower_zero {ef : EF} (n : Word) (h : ef.lowerLen = 0) :
    n &&& ((1#64 <<< ef.lowerLen) - 1#64) = 0#64 := by
  rw [h]; simp

theorem exists_covers (ef : EF) (up : Bool) (q : Nat) (r : R Nat) :
    ∃ b, ∀ sl, r = .ok sl → Covers ef up q sl b := by
  obtain ⟨b1, h1⟩ := exists_bound (ef.blockEnd up q)
  obtain ⟨b2, h2⟩ := exists_bound r
  refine ⟨b1 + b2 + 2 ^ 64 + 1, fun sl hsl => ⟨fun be hbe => ?_, ?_, by omega⟩⟩
  · have := h1 be hbe; omega
  · have := h2 sl hsl; omega


theorem predecessor_ends {ef : EF} (hf : Fits ef.upper) (h2 : ef.lowerLen < 64) (hl : ef.lower.data.length < 2 ^ 57)
    (n : Word) : ∃ b, Ends (ef.predecessor n (binB := b)) := by
  unfold predecessor predecessorUnchecked
  by_cases c : n < ef.zero ∨ ef.len = 0
  · exact ⟨0, by rw [if_pos c]; exact Ends.pure _⟩
  by_cases c2 : n > ef.max
  · exact ⟨0, by rw [if_neg c, if_pos c2]; ends [subR_ends, getUnchecked_ends hf]⟩
  cases hn : subW n ef.zero with
  | error e =>
    refine ⟨0, ?_⟩
    rw [if_neg c, if_neg c2]
    have := subW_ends n ef.zero
    rw [hn] at this
    exact Ends.bind (Ends.bind this (fun _ h => by cases h)) (fun _ _ => Ends.pure _)
  | ok v =>
    obtain ⟨b, hb⟩ := exists_covers ef true (v >>> ef.lowerLen).toNat
      (ef.upper.select true (v >>> ef.lowerLen).toNat >>= fun su => subR su (v >>> ef.lowerLen).toNat)
    refine ⟨b, ?_⟩
    rw [if_neg c, if_neg c2, ok_bind]
    refine Ends.bind (Ends.bind (select_ends hf ..) (fun su hsu => Ends.bind (subR_ends ..) (fun sl hsl => ?_)))
      (fun _ _ => Ends.pure _)
    exact search_ends hf (by intro h; rfl) h2 hl (Or.inl rfl) _ (hb sl (by rw [hsu, ok_bind, hsl])) _ _ _
      (fun h => queryLower_zero _ h)

theorem rank_ends {ef : EF} (hf : Fits ef.upper) (h2 : ef.lowerLen < 64) (hl : ef.lower.data.length < 2 ^ 57)
    (n : Word) : ∃ b, Ends (ef.rank n (binB := b)) := by
  unfold rank
  by_cases c : n > ef.max ∨ ef.len = 0
  · exact ⟨0, by rw [if_pos c]; exact Ends.pure _⟩
  by_cases c2 : n < ef.zero
  · exact ⟨0, by rw [if_neg c, if_pos c2]; exact Ends.pure _⟩
  cases hn : subW n ef.zero with
  | error e =>
    refine ⟨0, ?_⟩
    rw [if_neg c, if_neg c2]
    have := subW_ends n ef.zero
    rw [hn] at this
    exact Ends.bind this (fun _ h => by cases h)
  | ok v =>
    obtain ⟨b, hb⟩ := exists_covers ef true (v >>> ef.lowerLen).toNat
      (ef.upper.select true (v >>> ef.lowerLen).toNat >>= fun su => subR su (v >>> ef.lowerLen).toNat)
    refine ⟨b, ?_⟩
    rw [if_neg c, if_neg c2, ok_bind]
    refine Ends.bind (select_ends hf ..) (fun su hsu => Ends.bind (subR_ends ..) (fun sl hsl => ?_))
    exact search_ends hf (by intro h; rfl) h2 hl (Or.inl rfl) _ (hb sl (by rw [hsu, ok_bind, hsl])) _ _ _
      (fun h => queryLower_zero _ h)

theorem successor_ends {ef : EF} (hf : Fits ef.upper) (h2 : ef.lowerLen < 64) (hl : ef.lower.data.length < 2 ^ 57)
    (hz : Profile.debug = true ∨ ef.lowAt 0 = .ok 0#64)
    (n : Word) : ∃ b, Ends (ef.successor n (binB := b)) := by
  unfold successor successorUnchecked
  by_cases c : n > ef.max ∨ ef.len = 0
  · exact ⟨0, by rw [if_pos c]; exact Ends.pure _⟩
  by_cases c2 : n < ef.zero
  · exact ⟨0, by rw [if_neg c, if_pos c2]; ends [getUnchecked_ends hf]⟩
  cases hn : subW n ef.zero with
  | error e =>
    refine ⟨0, ?_⟩
    rw [if_neg c, if_neg c2]
    have := subW_ends n ef.zero
    rw [hn] at this
    exact Ends.bind (Ends.bind this (fun _ h => by cases h)) (fun _ _ => Ends.pure _)
  | ok v =>
    obtain ⟨b, hb⟩ := exists_covers ef false (v >>> ef.lowerLen).toNat
      (addU (v >>> ef.lowerLen).toNat 1 >>= fun k => ef.upper.select true k >>= fun su =>
        subR su (v >>> ef.lowerLen).toNat >>= fun sl => subR sl 2)
    refine ⟨b, ?_⟩
    rw [if_neg c, if_neg c2, ok_bind]
    refine Ends.bind (Ends.bind (addU_ends ..) (fun k hk => Ends.bind (select_ends hf ..) (fun su hsu =>
      Ends.bind (subR_ends ..) (fun sl hsl => Ends.bind (subR_ends ..) (fun sl' hsl' => ?_))))) (fun _ _ => Ends.pure _)
    exact search_ends hf (by intro h; cases h) h2 hl (Or.inr hz) _
      (hb sl' (by rw [hk, ok_bind, hsu, ok_bind, hsl, ok_bind, hsl'])) _ _ _
      (fun h => queryLower_zero _ h)

end EF

omit [Profile] in
theorem nonZeroR_ends (n : Nat) : Ends (nonZeroR n) := by
  unfold nonZeroR; ends [unwrapR_ends]

theorem GenIter.advanceErr_ends (p : GenIter) (n : Nat) : Ends (p.advanceErr n) := by
  unfold advanceErr; ends [subR_ends, addU_ends, unwrapR_ends, nonZeroR_ends]

theorem GenIter.advanceBy_ends (p : GenIter) (n : Nat) : Ends (p.advanceBy n) := by
  unfold advanceBy; ends [subR_ends, addU_ends, advanceErr_ends]

theorem GenIter.advanceBackBy_ends (p : GenIter) (n : Nat) : Ends (p.advanceBackBy n) := by
  unfold advanceBackBy; ends [subR_ends, addU_ends, unwrapR_ends, nonZeroR_ends]

namespace EfIter
open EF

theorem new_ends (ef : EF) : Ends (new ef) := by
  unfold new; ends [SelIter.new_ends]

theorem combine_ends (ef : EF) (u i : Nat) : Ends (combine ef u i) := by
  unfold combine; ends [subR_ends, lowAt_ends]

theorem advanceBy_ends {ef : EF} (hf : Fits ef.upper) (it : EfIter) (n : Nat) : Ends (it.advanceBy ef n) := by
  unfold advanceBy; ends [GenIter.advanceBy_ends, SelIter.nth_ends hf, unwrapR_ends]

theorem advanceBackBy_ends {ef : EF} (hf : Fits ef.upper) (it : EfIter) (n : Nat) : Ends (it.advanceBackBy ef n) := by
  unfold advanceBackBy; ends [GenIter.advanceBackBy_ends, SelIter.nthBack_ends hf, unwrapR_ends]

theorem next_ends {ef : EF} (hf : Fits ef.upper) (it : EfIter) : Ends (it.next ef) := by
  unfold next; ends [SelIter.next_ends hf, combine_ends, addW_ends]

theorem nextBack_ends {ef : EF} (hf : Fits ef.upper) (it : EfIter) : Ends (it.nextBack ef) := by
  unfold nextBack; ends [SelIter.nextBack_ends hf, combine_ends, addW_ends, unwrapR_ends]

theorem last_ends {ef : EF} (hf : Fits ef.upper) (it : EfIter) : Ends (it.last ef) := by
  unfold last; ends [SelIter.last_ends hf, combine_ends, unwrapR_ends]

theorem step_ends {ef : EF} (hf : Fits ef.upper) (it : EfIter) (op : IterOp) : Ends (it.step ef op) := by
  cases op <;> unfold step
  · ends [next_ends hf]
  · ends [nextBack_ends hf]
  · unfold nth; ends [advanceBy_ends hf, next_ends hf]
  · unfold nthBack; ends [advanceBackBy_ends hf, nextBack_ends hf]
  · ends []

end EfIter
end Vers
