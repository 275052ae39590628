import Verif.SpecSafe
import Verif.Model.RsIter
import Verif.Model.BitSet
import Verif.Proofs.BitSet

set_option linter.unusedSimpArgs false
set_option linter.unusedVariables false

/-!
# No access out of bounds in the `unsafe` code

One lemma per function of the SIMD build, for arbitrary fields of the vector and of the iterator. Helper lemmas of
`Props/Safe.lean`.
-/

namespace Vers

variable [Profile]
open Spec

namespace NoUB

omit [Profile] in
theorem ok {α : Type} (a : α) : NoUB (.ok a : R α) := ⟨fun h => by cases h⟩

omit [Profile] in
theorem pure {α : Type} (a : α) : NoUB (Pure.pure a : R α) := ⟨fun h => by cases h⟩

omit [Profile] in
theorem fuel {α : Type} : NoUB (.error .fuel : R α) := ⟨fun h => by cases h⟩

omit [Profile] in
theorem bind {α β : Type} {a : R α} {f : α → R β} (h : NoUB a) (hf : ∀ x, a = .ok x → NoUB (f x)) : NoUB (a >>= f) := by
  cases a with
  | error e => exact ⟨fun hc => by cases hc; exact h.ne rfl⟩
  | ok x => exact hf x rfl

omit [Profile] in
theorem ite {α : Type} {c : Prop} [Decidable c] {a b : R α} (h1 : c → NoUB a) (h2 : ¬c → NoUB b) :
    NoUB (if c then a else b) := by
  by_cases h : c
  · rw [if_pos h]; exact h1 h
  · rw [if_neg h]; exact h2 h

end NoUB

macro "safe" "[" ts:term,* "]" : tactic => do
  let alts ← ts.getElems.mapM fun t => `(tactic| with_reducible exact $t ..)
  `(tactic| repeat' (first
    | with_reducible exact NoUB.pure _
    | with_reducible exact NoUB.ok _
    | with_reducible exact NoUB.fuel
    $[| $alts:tactic]*
    | with_reducible (refine NoUB.bind ?_ (fun _ _ => ?_))
    | with_reducible (refine NoUB.ite (fun _ => ?_) (fun _ => ?_))
    | with_reducible solve_by_elim
    | intro _
    | split))

theorem wrapR_safe {α : Type} (x : α) : NoUB (wrapR x) := by
  unfold wrapR; split <;> exact ⟨fun h => by cases h⟩

omit [Profile] in
theorem idx_safe {α : Type} (l : List α) (i : Nat) : NoUB (idx l i) := by
  unfold idx; split <;> exact ⟨fun h => by cases h⟩

omit [Profile] in
theorem prefixR_safe {α : Type} (l : List α) (i : Nat) : NoUB (prefixR l i) := by
  unfold prefixR; split <;> exact ⟨fun h => by cases h⟩

omit [Profile] in
theorem sliceR_safe {α : Type} (l : List α) (i j : Nat) : NoUB (sliceR l i j) := by
  unfold sliceR; split <;> exact ⟨fun h => by cases h⟩

theorem subR_safe (a b : Nat) : NoUB (subR a b) := by
  unfold subR; safe [wrapR_safe]

theorem addU_safe (a b : Nat) : NoUB (addU a b) := by
  unfold addU; safe [wrapR_safe]

theorem dassertR_safe (c : Prop) [Decidable c] : NoUB (dassertR c) := by
  unfold dassertR
  repeat' split
  all_goals exact ⟨fun h => by cases h⟩

omit [Profile] in
theorem pdepLoop_safe (v : Word) : ∀ (n : Nat) (m r b : Word), NoUB (pdepLoop v n m r b)
  | 0, m, r, b => by unfold pdepLoop; safe []
  | n + 1, m, r, b => by
    unfold pdepLoop
    have := pdepLoop_safe v n
    safe [this]

theorem selectInWord_safe (r : Nat) (w : Word) : NoUB (selectInWord r w) := by
  unfold selectInWord pdep; safe [wrapR_safe, pdepLoop_safe]

namespace RsVec

theorem superBefore_safe (rs : RsVec) (z : Bool) (s : Nat) : NoUB (rs.superBefore z s) := by
  unfold superBefore; safe [idx_safe, subR_safe]

theorem searchSuperKey_safe (rs : RsVec) (z : Bool) (s : Nat) : NoUB (rs.searchSuperKey z s) := by
  unfold searchSuperKey; safe [idx_safe, subR_safe]

theorem searchSuperBin_safe (rs : RsVec) (z : Bool) (r : Nat) : ∀ n a b, NoUB (rs.searchSuperBin z r n a b)
  | 0, a, b => by unfold searchSuperBin; safe []
  | n + 1, a, b => by
    unfold searchSuperBin
    have := searchSuperBin_safe rs z r n
    safe [subR_safe, searchSuperKey_safe, this]

theorem searchSuperLin_safe (rs : RsVec) (z : Bool) (r : Nat) : ∀ n a, NoUB (rs.searchSuperLin z r n a)
  | 0, a => by unfold searchSuperLin; safe []
  | n + 1, a => by
    unfold searchSuperLin
    have := searchSuperLin_safe rs z r n
    safe [superBefore_safe, this]

theorem searchSuper_safe (rs : RsVec) (z : Bool) (s r b : Nat) : NoUB (rs.searchSuper z s r b) := by
  unfold searchSuper; safe [idx_safe, searchSuperBin_safe, searchSuperLin_safe]

theorem blockBefore_safe (rs : RsVec) (z : Bool) (b j : Nat) : NoUB (rs.blockBefore z b j) := by
  unfold blockBefore; safe [idx_safe, subR_safe]

theorem searchBlockStep_safe (rs : RsVec) (z : Bool) (r b : Nat) : ∀ l j, NoUB (rs.searchBlockStep z r b j l)
  | [], j => by unfold searchBlockStep; safe []
  | x :: l, j => by
    unfold searchBlockStep
    have := searchBlockStep_safe rs z r b l
    safe [blockBefore_safe, this]

theorem searchBlock_safe (rs : RsVec) (z : Bool) (r b : Nat) : NoUB (rs.searchBlock z r b) := by
  unfold searchBlock; safe [searchBlockStep_safe]

theorem searchWordStep_safe (rs : RsVec) (z : Bool) (b : Nat) : ∀ s n r, NoUB (rs.searchWordStep z b s n r)
  | 0, n, r => by unfold searchWordStep; safe [idx_safe, selectInWord_safe]
  | s + 1, n, r => by
    unfold searchWordStep
    have := searchWordStep_safe rs z b s
    safe [idx_safe, selectInWord_safe, this]

theorem searchWord_safe (rs : RsVec) (z : Bool) (r b : Nat) : NoUB (rs.searchWord z r b) := by
  unfold searchWord; safe [searchWordStep_safe]

theorem selectSuper_safe (rs : RsVec) (z : Bool) (r b : Nat) : NoUB (rs.selectSuper z r b) := by
  unfold selectSuper; safe [idx_safe, superBefore_safe, searchSuper_safe]

omit [Profile] in
/-- If the wrapped sum of the guard admits the load, either the slice before it panics or the load is in bounds. -/
theorem loadBlocks_safe {blocks : List Nat} {base : Nat} (hb : base < 2 ^ 64) (hl : blocks.length ≤ 2 ^ 63)
    (h : blocks.length > (base + 16) % 2 ^ 64) : NoUB (loadBlocks blocks base) := by
  unfold loadBlocks
  refine NoUB.bind (sliceR_safe ..) (fun bs hbs => ?_)
  unfold sliceR at hbs
  by_cases hc : base ≤ blocks.length ∧ blocks.length ≤ blocks.length
  · rw [if_pos hc] at hbs
    injection hbs with hbs
    subst hbs
    rw [if_neg]
    · exact NoUB.pure _
    · simp only [List.take_length, List.length_drop]
      omega
  · rw [if_neg hc] at hbs; cases hbs

omit [Profile] in
theorem loadBlocks_safe' {blocks : List Nat} {base : Nat} (h : blocks.length > base + 16) :
    NoUB (loadBlocks blocks base) := by
  unfold loadBlocks
  refine NoUB.bind (sliceR_safe ..) (fun bs hbs => ?_)
  unfold sliceR at hbs
  rw [if_pos ⟨by omega, Nat.le_refl _⟩] at hbs
  injection hbs with hbs
  subst hbs
  rw [if_neg]
  · exact NoUB.pure _
  · simp only [List.take_length, List.length_drop]
    omega

theorem searchBlockSimd_safe (rs : RsVec) (z : Bool) (r b : Nat) : NoUB (rs.searchBlockSimd z r b) := by
  unfold searchBlockSimd
  refine NoUB.ite (fun h => NoUB.bind (loadBlocks_safe' h) (fun bs _ => ?_)) (fun _ => searchBlock_safe ..)
  safe [dassertR_safe]

theorem selectSimd_safe (rs : RsVec) (z : Bool) (r : Nat) : NoUB (rs.selectSimd z r) := by
  unfold selectSimd
  safe [selectSuper_safe, superBefore_safe, subR_safe, searchBlockSimd_safe, blockBefore_safe, searchWord_safe]

theorem rankBlockBefore_safe (rs : RsVec) (z : Bool) (b : Nat) : NoUB (rs.rankBlockBefore z b) := by
  unfold rankBlockBefore; safe [idx_safe, subR_safe]

theorem rank_safe (rs : RsVec) (z : Bool) (p : Nat) : NoUB (rs.rank z p) := by
  unfold rank; safe [superBefore_safe, rankBlockBefore_safe, sliceR_safe, idx_safe, subR_safe]

omit [Profile] in
theorem getUnchecked_safe (rs : RsVec) (p : Nat) : NoUB (rs.getUnchecked p) := by
  unfold getUnchecked; safe [idx_safe]

theorem getBitsUnchecked_safe (rs : RsVec) (p n : Nat) : NoUB (rs.getBitsUnchecked p n) := by
  unfold getBitsUnchecked BV.getBitsRaw; safe [idx_safe, dassertR_safe, addU_safe]

end RsVec

namespace SelIter
open RsVec

theorem new_safe (rs : RsVec) (z : Bool) : NoUB (new rs z) := by
  unfold new; safe [subR_safe]

theorem fwdSuperHit_safe (rs : RsVec) (z : Bool) (it : SelIter) : NoUB (fwdSuperHit rs z it) := by
  unfold fwdSuperHit; safe [superBefore_safe]

theorem fwdBlockHit_safe (rs : RsVec) (z : Bool) (it : SelIter) (r : Nat) : NoUB (fwdBlockHit rs z it r) := by
  unfold fwdBlockHit; safe [blockBefore_safe]

theorem useBlock_safe (rs : RsVec) (z : Bool) (s r b : Nat) (h : Bool) : NoUB (useBlock rs z s r b h) := by
  unfold useBlock; safe [blockBefore_safe, subR_safe]

theorem missSuper_safe (rs : RsVec) (z : Bool) (h r : Nat) : NoUB (missSuper rs z h r) := by
  unfold missSuper; safe [searchSuper_safe, superBefore_safe, subR_safe]

theorem fwdLocate_safe (rs : RsVec) (z : Bool) (it : SelIter) : NoUB (fwdLocate rs z it) := by
  unfold fwdLocate
  safe [idx_safe, fwdSuperHit_safe, superBefore_safe, subR_safe, fwdBlockHit_safe, useBlock_safe, missSuper_safe]

theorem searchBlockV_safe (rs : RsVec) (z : Bool) (r b : Nat) (simd : Bool) : NoUB (searchBlockV rs z r b simd) := by
  unfold searchBlockV; safe [searchBlockSimd_safe, searchBlock_safe]

theorem finish_safe (rs : RsVec) (z : Bool) (s r b : Nat) (simd : Bool) : NoUB (finish rs z s r b simd) := by
  unfold finish; safe [searchBlockV_safe, blockBefore_safe, subR_safe, searchWord_safe]

theorem next_safe (rs : RsVec) (z : Bool) (it : SelIter) (simd : Bool) : NoUB (next rs z it simd) := by
  unfold next; safe [fwdLocate_safe, finish_safe]

theorem bwdLocate_safe (rs : RsVec) (z : Bool) (it : SelIter) (r : Nat) : NoUB (bwdLocate rs z it r) := by
  unfold bwdLocate; safe [idx_safe, superBefore_safe, subR_safe, blockBefore_safe, useBlock_safe, missSuper_safe]

theorem nextBack_safe (rs : RsVec) (z : Bool) (it : SelIter) (simd : Bool) : NoUB (nextBack rs z it simd) := by
  unfold nextBack; safe [bwdLocate_safe, finish_safe]

theorem subBack_safe (o : Option Nat) (n : Nat) : NoUB (subBack o n) := by
  unfold subBack; safe [subR_safe]

theorem advanceBackBy_safe (it : SelIter) (n : Nat) : NoUB (it.advanceBackBy n) := by
  unfold advanceBackBy; safe [subBack_safe]

theorem nth_safe (rs : RsVec) (z : Bool) (it : SelIter) (n : Nat) (simd : Bool) : NoUB (it.nth rs z n simd) := by
  unfold nth; safe [next_safe]

theorem nthBack_safe (rs : RsVec) (z : Bool) (it : SelIter) (n : Nat) (simd : Bool) : NoUB (it.nthBack rs z n simd) := by
  unfold nthBack; safe [advanceBackBy_safe, nextBack_safe]

theorem last_safe (rs : RsVec) (z : Bool) (it : SelIter) (simd : Bool) : NoUB (it.last rs z simd) := by
  unfold last; safe [nth_safe]

theorem stepSimd_safe (rs : RsVec) (z : Bool) (it : SelIter) (op : IterOp) : NoUB (stepSimd rs z it op) := by
  cases op <;> unfold stepSimd <;> safe [next_safe, nextBack_safe, nth_safe, nthBack_safe]

end SelIter

namespace RsVec

theorem sparseLoop_safe (rs other : RsVec) (z simd : Bool) : ∀ n it k, NoUB (sparseLoop rs other z simd n it k)
  | 0, it, k => by unfold sparseLoop; safe []
  | n + 1, it, k => by
    unfold sparseLoop
    have := sparseLoop_safe rs other z simd n
    safe [SelIter.next_safe, getUnchecked_safe, rank_safe, this]

theorem sparseEquals_safe (z : Bool) (rs other : RsVec) (simd : Bool) : NoUB (sparseEquals z rs other simd) := by
  unfold sparseEquals; safe [SelIter.new_safe, sparseLoop_safe]

omit [Profile] in
theorem fullEquals_safe (rs other : RsVec) : NoUB (fullEquals rs other) := by
  unfold fullEquals; safe [prefixR_safe, idx_safe]

theorem eq_safe (rs other : RsVec) (simd : Bool) : NoUB (rs.eq other simd) := by
  unfold RsVec.eq; safe [sparseEquals_safe, fullEquals_safe]

end RsVec

namespace BsIter
open RsVec

omit [Profile] in
theorem loadChunk_safe (z : Bool) {it : BsIter} (w : Word) (h : it.offsets.length = 16) : NoUB (loadChunk z it w) := by
  rw [loadChunk_eq h]; exact NoUB.ok _

omit [Profile] in
theorem loadChunk_size {z : Bool} {it it' : BsIter} {w : Word} (h : it.offsets.length = 16)
    (h' : loadChunk z it w = .ok it') : it'.offsets.length = 16 := by
  rw [loadChunk_eq h] at h'
  injection h' with h'
  rw [← h']; exact chunkState_size h

theorem loadNext_safe (rs : RsVec) (z : Bool) : ∀ n (it : BsIter), it.offsets.length = 16 →
    NoUB (loadNext rs z n it) ∧ ∀ p, loadNext rs z n it = .ok p → p.1.offsets.length = 16
  | 0, it, h => ⟨NoUB.fuel, fun p hp => by cases hp⟩
  | n + 1, it, h => by
    unfold loadNext
    by_cases hc : it.cursor = it.contentLen
    · rw [if_pos hc]
      by_cases hl : it.base + 16 ≥ rs.len
      · rw [if_pos hl]
        exact ⟨NoUB.pure _, fun p hp => by cases hp; exact h⟩
      · rw [if_neg hl]
        constructor
        · refine NoUB.bind (getBitsUnchecked_safe ..) (fun w _ => ?_)
          refine NoUB.bind (loadChunk_safe z w (by exact h)) (fun it' h' => ?_)
          exact (loadNext_safe rs z n it' (loadChunk_size (by exact h) h')).1
        · intro p hp
          obtain ⟨w, -, hp⟩ := bind_eq_ok.mp hp
          obtain ⟨it', h', hp⟩ := bind_eq_ok.mp hp
          exact (loadNext_safe rs z n it' (loadChunk_size (by exact h) h')).2 p hp
    · rw [if_neg hc]
      exact ⟨NoUB.pure _, fun p hp => by cases hp; exact h⟩

omit [Profile] in
theorem skipTail_safe (rs : RsVec) (z : Bool) : ∀ n b, NoUB (skipTail rs z n b)
  | 0, b => by unfold skipTail; safe []
  | n + 1, b => by
    unfold skipTail
    have := skipTail_safe rs z n
    safe [getUnchecked_safe, this]

theorem new_safe (rs : RsVec) (z : Bool) : NoUB (new rs z) ∧ ∀ it, new rs z = .ok it → it.offsets.length = 16 := by
  unfold new
  by_cases hl : rs.len > 16
  · rw [if_pos hl]
    refine ⟨NoUB.bind (getBitsUnchecked_safe ..) (fun w _ => loadChunk_safe z w (by simp)), fun it hit => ?_⟩
    obtain ⟨w, -, hit⟩ := bind_eq_ok.mp hit
    exact loadChunk_size (by simp) hit
  · rw [if_neg hl]
    exact ⟨NoUB.pure _, fun it hit => by cases hit; simp⟩

theorem next_safe (rs : RsVec) (z : Bool) (it : BsIter) (h : it.offsets.length = 16) :
    NoUB (next rs z it) ∧ ∀ p, next rs z it = .ok p → p.1.offsets.length = 16 := by
  have he : ∀ it : BsIter, it.offsets.length = 16 → NoUB (emit it) ∧ ∀ p, emit it = .ok p → p.1.offsets.length = 16 := by
    intro it h
    unfold emit
    refine ⟨by safe [idx_safe], fun p hp => ?_⟩
    obtain ⟨o, -, hp⟩ := bind_eq_ok.mp hp
    cases hp; exact h
  have ht : ∀ it : BsIter, it.offsets.length = 16 →
      NoUB (emitTail rs z it) ∧ ∀ p, emitTail rs z it = .ok p → p.1.offsets.length = 16 := by
    intro it h
    unfold emitTail
    refine ⟨by safe [skipTail_safe], fun p hp => ?_⟩
    obtain ⟨o, -, hp⟩ := bind_eq_ok.mp hp
    by_cases hb : o < rs.len
    · rw [if_pos hb] at hp; cases hp; exact h
    · rw [if_neg hb] at hp; cases hp; exact h
  unfold next
  by_cases hb : it.base ≥ rs.len
  · rw [if_pos hb]; exact ⟨NoUB.pure _, fun p hp => by cases hp; exact h⟩
  · rw [if_neg hb]
    by_cases hc : it.cursor = it.contentLen
    · rw [if_pos hc]
      obtain ⟨g1, g2⟩ := loadNext_safe rs z (rs.len + 1) it h
      constructor
      · refine NoUB.bind g1 (fun p hp => ?_)
        have := g2 p hp
        by_cases hb : p.2
        · rw [if_pos hb]; exact (he p.1 this).1
        · rw [if_neg hb]; exact (ht p.1 this).1
      · intro q hq
        obtain ⟨p, hp, hq⟩ := bind_eq_ok.mp hq
        have := g2 p hp
        by_cases hb : p.2
        · rw [if_pos hb] at hq; exact (he p.1 this).2 q hq
        · rw [if_neg hb] at hq; exact (ht p.1 this).2 q hq
    · rw [if_neg hc]; exact he it h

end BsIter
end Vers
