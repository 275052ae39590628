import Verif.SpecSafe
import Verif.Model.RsIter
import Verif.Model.BitSet
import Verif.Model.Bp
import Verif.Model.Wavelet
import Verif.Proofs.Base
import Verif.Proofs.Pdep

set_option linter.unusedSimpArgs false
set_option linter.unusedVariables false

/-!
# Termination for arbitrary contents

One lemma per function, for arbitrary fields of the structure that are representable. Helper lemmas of `Props/Ends.lean`.
-/

namespace Vers

variable [Profile]
open Spec

namespace Spec.Ends

omit [Profile] in
theorem ok {α : Type} (a : α) : Ends (.ok a : R α) := ⟨fun h => by cases h⟩

omit [Profile] in
theorem pure {α : Type} (a : α) : Ends (Pure.pure a : R α) := ⟨fun h => by cases h⟩

omit [Profile] in
theorem unreachable {α : Type} : Ends (.error .unreachable : R α) := ⟨fun h => by cases h⟩

omit [Profile] in
theorem divZero {α : Type} : Ends (.error .divZero : R α) := ⟨fun h => by cases h⟩

omit [Profile] in
theorem overflow {α : Type} : Ends (.error .overflow : R α) := ⟨fun h => by cases h⟩

omit [Profile] in
theorem unwrap {α : Type} : Ends (.error .unwrap : R α) := ⟨fun h => by cases h⟩

omit [Profile] in
theorem oob {α : Type} : Ends (.error .oob : R α) := ⟨fun h => by cases h⟩

omit [Profile] in
theorem ub {α : Type} : Ends (.error .ub : R α) := ⟨fun h => by cases h⟩

omit [Profile] in
theorem bind {α β : Type} {a : R α} {f : α → R β} (h : Ends a) (hf : ∀ x, a = .ok x → Ends (f x)) : Ends (a >>= f) := by
  cases a with
  | error e => exact ⟨fun hc => by cases hc; exact h.ne rfl⟩
  | ok x => exact hf x rfl

omit [Profile] in
theorem ite {α : Type} {c : Prop} [Decidable c] {a b : R α} (h1 : c → Ends a) (h2 : ¬c → Ends b) :
    Ends (if c then a else b) := by
  by_cases h : c
  · rw [if_pos h]; exact h1 h
  · rw [if_neg h]; exact h2 h

end Spec.Ends

macro "ends" "[" ts:term,* "]" : tactic => do
  let alts ← ts.getElems.mapM fun t => `(tactic| (with_reducible apply $t; done))
  `(tactic| repeat' (first
    | with_reducible exact Ends.pure _
    | with_reducible exact Ends.ok _
    | with_reducible exact Ends.unreachable
    | with_reducible exact Ends.divZero
    | with_reducible exact Ends.unwrap
    | with_reducible exact Ends.oob
    | with_reducible exact Ends.ub
    $[| $alts:tactic]*
    | with_reducible (refine Ends.bind ?_ (fun _ _ => ?_))
    | with_reducible (refine Ends.ite (fun _ => ?_) (fun _ => ?_))
    | with_reducible solve_by_elim
    | intro _
    | split))

theorem wrapR_ends {α : Type} (x : α) : Ends (wrapR x) := by
  unfold wrapR; split <;> exact ⟨fun h => by cases h⟩

omit [Profile] in
theorem idx_ends {α : Type} (l : List α) (i : Nat) : Ends (idx l i) := by
  unfold idx; split <;> exact ⟨fun h => by cases h⟩

omit [Profile] in
theorem prefixR_ends {α : Type} (l : List α) (i : Nat) : Ends (prefixR l i) := by
  unfold prefixR; split <;> exact ⟨fun h => by cases h⟩

omit [Profile] in
theorem sliceR_ends {α : Type} (l : List α) (i j : Nat) : Ends (sliceR l i j) := by
  unfold sliceR; split <;> exact ⟨fun h => by cases h⟩

theorem subR_ends (a b : Nat) : Ends (subR a b) := by
  unfold subR; ends [wrapR_ends]

theorem addU_ends (a b : Nat) : Ends (addU a b) := by
  unfold addU; ends [wrapR_ends]

theorem dassertR_ends (c : Prop) [Decidable c] : Ends (dassertR c) := by
  unfold dassertR
  repeat' split
  all_goals exact ⟨fun h => by cases h⟩

omit [Profile] in
theorem pdep_ends (v m : Word) : Ends (pdep v m) := by
  obtain ⟨w, h, -⟩ := pdep_eq v m
  rw [h]; exact Ends.ok _

theorem selectInWord_ends (r : Nat) (w : Word) : Ends (selectInWord r w) := by
  unfold selectInWord; ends [wrapR_ends, pdep_ends]

namespace RsVec

theorem superBefore_ends (rs : RsVec) (z : Bool) (s : Nat) : Ends (rs.superBefore z s) := by
  unfold superBefore; ends [idx_ends, subR_ends]

theorem searchSuperKey_ends (rs : RsVec) (z : Bool) (s : Nat) : Ends (rs.searchSuperKey z s) := by
  unfold searchSuperKey; ends [idx_ends, subR_ends]

theorem searchSuperBin_ends {rs : RsVec} (hf : Fits rs) (z : Bool) (r : Nat) : ∀ n a b, a < 2 ^ 64 → b < 2 ^ 64 →
    Nat.min b rs.supers.length - a < n → Ends (rs.searchSuperBin z r n a b)
  | 0, a, b, _, _, h => absurd h (Nat.not_lt_zero _)
  | n + 1, a, b, ha, hb, h => by
    have hs := hf.supers
    unfold searchSuperBin
    refine Ends.bind (subR_ends ..) (fun d hd => Ends.ite (fun h8 => ?_) (fun _ => Ends.pure _))
    refine Ends.bind (searchSuperKey_ends ..) (fun k hk => ?_)
    have hm : a + d / 2 < rs.supers.length := by
      unfold searchSuperKey at hk
      obtain ⟨x, hx, -⟩ := bind_eq_ok.mp hk
      unfold idx at hx
      cases hg : rs.supers[a + d / 2]? with
      | none => rw [hg] at hx; cases hx
      | some y => exact (List.getElem?_eq_some_iff.mp hg).1
    have hab : a ≤ b ∧ d = b - a := by
      unfold subR at hd
      by_cases hc : a ≤ b
      · rw [if_pos hc] at hd; injection hd with hd; exact ⟨hc, hd.symm⟩
      · rw [if_neg hc] at hd
        unfold wrapR at hd
        split at hd
        · cases hd
        · injection hd with hd
          omega
    have e1 : Nat.min b rs.supers.length = min b rs.supers.length := rfl
    rw [e1] at h
    refine Ends.ite (fun _ => ?_) (fun _ => ?_)
    · refine searchSuperBin_ends hf z r n _ _ (by omega) hb ?_
      rw [e1]; omega
    · refine searchSuperBin_ends hf z r n _ _ ha (by omega) ?_
      have e2 : Nat.min (a + d / 2) rs.supers.length = min (a + d / 2) rs.supers.length := rfl
      rw [e2]; omega

theorem searchSuperLin_ends (rs : RsVec) (z : Bool) (r : Nat) : ∀ n a, rs.supers.length - a < n →
    Ends (rs.searchSuperLin z r n a)
  | 0, a, h => absurd h (Nat.not_lt_zero _)
  | n + 1, a, h => by
    unfold searchSuperLin
    refine Ends.ite (fun _ => Ends.bind (superBefore_ends ..) (fun _ _ => Ends.ite (fun _ => ?_) (fun _ => Ends.pure _)))
      (fun _ => Ends.pure _)
    exact searchSuperLin_ends rs z r n (a + 1) (by omega)

omit [Profile] in
theorem prj_lt {e : Nat × Nat} (h : e.1 < 2 ^ 64 ∧ e.2 < 2 ^ 64) (z : Bool) : prj z e < 2 ^ 64 := by
  unfold prj; split
  · exact h.1
  · exact h.2

omit [Profile] in
theorem selects_lt {rs : RsVec} (hf : Fits rs) {i : Nat} {e : Nat × Nat} (h : idx rs.selects i = .ok e) (z : Bool) :
    prj z e < 2 ^ 64 := by
  unfold idx at h
  cases hg : rs.selects[i]? with
  | none => rw [hg] at h; cases h
  | some y =>
    rw [hg] at h
    injection h with h
    subst h
    have := hf.selects _ (List.mem_of_getElem? hg)
    exact prj_lt (by omega) z

theorem searchSuper_ends {rs : RsVec} (hf : Fits rs) (z : Bool) {s : Nat} (hs : s < 2 ^ 64) (r : Nat) :
    Ends (rs.searchSuper z s r) := by
  unfold searchSuper
  refine Ends.bind (idx_ends ..) (fun e he => ?_)
  refine Ends.bind (searchSuperBin_ends hf z r _ _ _ hs (selects_lt hf he z) ?_) (fun s _ => ?_)
  · have e1 : Nat.min (prj z e) rs.supers.length = min (prj z e) rs.supers.length := rfl
    rw [e1]; omega
  · exact searchSuperLin_ends rs z r _ _ (by omega)

theorem blockBefore_ends (rs : RsVec) (z : Bool) (b j : Nat) : Ends (rs.blockBefore z b j) := by
  unfold blockBefore; ends [idx_ends, subR_ends]

theorem searchBlockStep_ends (rs : RsVec) (z : Bool) (r b : Nat) : ∀ l j, Ends (rs.searchBlockStep z r b j l)
  | [], j => by unfold searchBlockStep; ends []
  | x :: l, j => by
    unfold searchBlockStep
    have := searchBlockStep_ends rs z r b l
    ends [blockBefore_ends, this]

theorem searchBlock_ends (rs : RsVec) (z : Bool) (r b : Nat) : Ends (rs.searchBlock z r b) := by
  unfold searchBlock; ends [searchBlockStep_ends]

theorem searchWordStep_ends (rs : RsVec) (z : Bool) (b : Nat) : ∀ s n r, Ends (rs.searchWordStep z b s n r)
  | 0, n, r => by unfold searchWordStep; ends [idx_ends, selectInWord_ends]
  | s + 1, n, r => by
    unfold searchWordStep
    have := searchWordStep_ends rs z b s
    ends [idx_ends, selectInWord_ends, this]

theorem searchWord_ends (rs : RsVec) (z : Bool) (r b : Nat) : Ends (rs.searchWord z r b) := by
  unfold searchWord; ends [searchWordStep_ends]

theorem selectSuper_ends {rs : RsVec} (hf : Fits rs) (z : Bool) (r : Nat) : Ends (rs.selectSuper z r) := by
  unfold selectSuper
  refine Ends.bind (idx_ends ..) (fun e he => ?_)
  have := selects_lt hf he z
  refine Ends.ite (fun _ => Ends.bind (superBefore_ends ..) (fun _ _ => Ends.ite (fun _ => ?_) (fun _ => Ends.pure _)))
      (fun _ => Ends.pure _)
  exact searchSuper_ends hf z this r

theorem select_ends {rs : RsVec} (hf : Fits rs) (z : Bool) (r : Nat) : Ends (rs.select z r) := by
  unfold select
  ends [selectSuper_ends hf, superBefore_ends, subR_ends, searchBlock_ends, blockBefore_ends, searchWord_ends]

omit [Profile] in
theorem loadBlocks_ends (blocks : List Nat) (base : Nat) : Ends (loadBlocks blocks base) := by
  unfold loadBlocks; ends [sliceR_ends]

theorem searchBlockSimd_ends (rs : RsVec) (z : Bool) (r b : Nat) : Ends (rs.searchBlockSimd z r b) := by
  unfold searchBlockSimd; ends [loadBlocks_ends, dassertR_ends, searchBlock_ends]

theorem selectSimd_ends {rs : RsVec} (hf : Fits rs) (z : Bool) (r : Nat) : Ends (rs.selectSimd z r) := by
  unfold selectSimd
  ends [selectSuper_ends hf, superBefore_ends, subR_ends, searchBlockSimd_ends, blockBefore_ends, searchWord_ends]

theorem rankBlockBefore_ends (rs : RsVec) (z : Bool) (b : Nat) : Ends (rs.rankBlockBefore z b) := by
  unfold rankBlockBefore; ends [idx_ends, subR_ends]

theorem rank_ends (rs : RsVec) (z : Bool) (p : Nat) : Ends (rs.rank z p) := by
  unfold rank; ends [superBefore_ends, rankBlockBefore_ends, sliceR_ends, idx_ends, subR_ends]

omit [Profile] in
theorem getUnchecked_ends (rs : RsVec) (p : Nat) : Ends (rs.getUnchecked p) := by
  unfold getUnchecked; ends [idx_ends]

theorem getBitsUnchecked_ends (rs : RsVec) (p n : Nat) : Ends (rs.getBitsUnchecked p n) := by
  unfold getBitsUnchecked BV.getBitsRaw; ends [idx_ends, dassertR_ends, addU_ends]

end RsVec

namespace SelIter
open RsVec

theorem new_ends (rs : RsVec) (z : Bool) : Ends (new rs z) := by
  unfold new; ends [subR_ends]

theorem fwdSuperHit_ends (rs : RsVec) (z : Bool) (it : SelIter) : Ends (fwdSuperHit rs z it) := by
  unfold fwdSuperHit; ends [superBefore_ends]

theorem fwdBlockHit_ends (rs : RsVec) (z : Bool) (it : SelIter) (r : Nat) : Ends (fwdBlockHit rs z it r) := by
  unfold fwdBlockHit; ends [blockBefore_ends]

theorem useBlock_ends (rs : RsVec) (z : Bool) (s r b : Nat) (h : Bool) : Ends (useBlock rs z s r b h) := by
  unfold useBlock; ends [blockBefore_ends, subR_ends]

theorem missSuper_ends {rs : RsVec} (hf : Fits rs) (z : Bool) {h : Nat} (hh : h < 2 ^ 64) (r : Nat) :
    Ends (missSuper rs z h r) := by
  unfold missSuper; ends [searchSuper_ends hf z hh, superBefore_ends, subR_ends]

theorem fwdLocate_ends {rs : RsVec} (hf : Fits rs) (z : Bool) (it : SelIter) : Ends (fwdLocate rs z it) := by
  unfold fwdLocate
  refine Ends.bind (idx_ends ..) (fun e he => ?_)
  have := selects_lt hf he z
  ends [fwdSuperHit_ends, superBefore_ends, subR_ends, fwdBlockHit_ends, useBlock_ends, missSuper_ends hf z this]

theorem searchBlockV_ends (rs : RsVec) (z : Bool) (r b : Nat) (simd : Bool) : Ends (searchBlockV rs z r b simd) := by
  unfold searchBlockV; ends [searchBlockSimd_ends, searchBlock_ends]

theorem finish_ends (rs : RsVec) (z : Bool) (s r b : Nat) (simd : Bool) : Ends (finish rs z s r b simd) := by
  unfold finish; ends [searchBlockV_ends, blockBefore_ends, subR_ends, searchWord_ends]

theorem next_ends {rs : RsVec} (hf : Fits rs) (z : Bool) (it : SelIter) (simd : Bool) : Ends (next rs z it simd) := by
  unfold next; ends [fwdLocate_ends hf, finish_ends]

theorem bwdLocate_ends {rs : RsVec} (hf : Fits rs) (z : Bool) (it : SelIter) (r : Nat) : Ends (bwdLocate rs z it r) := by
  unfold bwdLocate
  refine Ends.bind (idx_ends ..) (fun e he => ?_)
  have := selects_lt hf he z
  ends [superBefore_ends, subR_ends, blockBefore_ends, useBlock_ends, missSuper_ends hf z this]

theorem nextBack_ends {rs : RsVec} (hf : Fits rs) (z : Bool) (it : SelIter) (simd : Bool) :
    Ends (nextBack rs z it simd) := by
  unfold nextBack; ends [bwdLocate_ends hf, finish_ends]

theorem subBack_ends (o : Option Nat) (n : Nat) : Ends (subBack o n) := by
  unfold subBack; ends [subR_ends]

theorem advanceBackBy_ends (it : SelIter) (n : Nat) : Ends (it.advanceBackBy n) := by
  unfold advanceBackBy; ends [subBack_ends]

theorem nth_ends {rs : RsVec} (hf : Fits rs) (z : Bool) (it : SelIter) (n : Nat) (simd : Bool) : Ends (it.nth rs z n simd) := by
  unfold nth; ends [next_ends hf]

theorem nthBack_ends {rs : RsVec} (hf : Fits rs) (z : Bool) (it : SelIter) (n : Nat) (simd : Bool) : Ends (it.nthBack rs z n simd) := by
  unfold nthBack; ends [advanceBackBy_ends, nextBack_ends hf]

theorem last_ends {rs : RsVec} (hf : Fits rs) (z : Bool) (it : SelIter) (simd : Bool) : Ends (it.last rs z simd) := by
  unfold last; ends [nth_ends hf]

theorem stepSimd_ends {rs : RsVec} (hf : Fits rs) (z : Bool) (it : SelIter) (op : IterOp) : Ends (stepSimd rs z it op) := by
  cases op <;> unfold stepSimd <;> ends [next_ends hf, nextBack_ends hf, nth_ends hf, nthBack_ends hf]

theorem step_ends {rs : RsVec} (hf : Fits rs) (z : Bool) (it : SelIter) (op : IterOp) : Ends (step rs z it op) := by
  cases op <;> unfold step <;> ends [next_ends hf, nextBack_ends hf, nth_ends hf, nthBack_ends hf]

theorem next_rank {rs : RsVec} {z simd : Bool} {it it' : SelIter} {p : Nat} (h : next rs z it simd = .ok (it', some p)) :
    it.nextRank < (if z then rs.rank0 else rs.rank1) ∧ it'.nextRank = it.nextRank + 1 := by
  unfold next at h
  cases hb : it.nextRankBack with
  | none => rw [hb] at h; cases h
  | some back =>
    rw [hb] at h
    simp only at h
    by_cases hc : it.nextRank ≥ (if z then rs.rank0 else rs.rank1) ∨ it.nextRank > back
    · rw [if_pos hc] at h; cases h
    · rw [if_neg hc] at h
      obtain ⟨t, -, h⟩ := bind_eq_ok.mp h
      obtain ⟨q, -, h⟩ := bind_eq_ok.mp h
      cases h
      exact ⟨by omega, rfl⟩

end SelIter

namespace RsVec

theorem sparseLoop_ends {rs : RsVec} (hf : Fits rs) (other : RsVec) (z simd : Bool) : ∀ n (it : SelIter) k,
    (if z then rs.rank0 else rs.rank1) - it.nextRank < n → Ends (sparseLoop rs other z simd n it k)
  | 0, it, k, h => absurd h (Nat.not_lt_zero _)
  | n + 1, it, k, h => by
    unfold sparseLoop
    refine Ends.bind (SelIter.next_ends hf ..) (fun p hp => ?_)
    obtain ⟨it', o⟩ := p
    cases o with
    | none => exact Ends.pure _
    | some i =>
      obtain ⟨h1, h2⟩ := SelIter.next_rank hp
      have := sparseLoop_ends hf other z simd n it' (k + 1) (by omega)
      simp only
      ends [getUnchecked_ends, rank_ends, this]

theorem sparseEquals_ends {rs : RsVec} (hf : Fits rs) (z : Bool) (other : RsVec) (simd : Bool) :
    Ends (sparseEquals z rs other simd) := by
  unfold sparseEquals
  refine Ends.ite (fun _ => Ends.pure _) (fun _ => Ends.ite (fun _ => Ends.pure _) (fun _ => ?_))
  refine Ends.bind (SelIter.new_ends ..) (fun it _ => ?_)
  exact sparseLoop_ends hf other z simd _ it 0 (by omega)

omit [Profile] in
theorem fullEquals_ends (rs other : RsVec) : Ends (fullEquals rs other) := by
  unfold fullEquals; ends [prefixR_ends, idx_ends]

theorem eq_ends {rs : RsVec} (hf : Fits rs) (other : RsVec) (simd : Bool) : Ends (rs.eq other simd) := by
  unfold RsVec.eq; ends [sparseEquals_ends hf, fullEquals_ends]

end RsVec

namespace BsIter
open RsVec

omit [Profile] in
theorem loadChunk_ends (z : Bool) (it : BsIter) (w : Word) : Ends (loadChunk z it w) := by
  unfold loadChunk; ends []

omit [Profile] in
theorem loadChunk_base {z : Bool} {it it' : BsIter} {w : Word} (h : loadChunk z it w = .ok it') : it'.base = it.base := by
  unfold loadChunk at h
  by_cases hc : it.offsets.length < (selected z w).length
  · rw [if_pos hc] at h; cases h
  · rw [if_neg hc] at h; cases h; rfl

theorem loadNext_ends (rs : RsVec) (z : Bool) : ∀ n (it : BsIter), rs.len - it.base < n → Ends (loadNext rs z n it)
  | 0, it, h => absurd h (Nat.not_lt_zero _)
  | n + 1, it, h => by
    unfold loadNext
    refine Ends.ite (fun _ => Ends.ite (fun _ => Ends.pure _) (fun hb => ?_)) (fun _ => Ends.pure _)
    refine Ends.bind (getBitsUnchecked_ends ..) (fun w _ => Ends.bind (loadChunk_ends ..) (fun it' h' => ?_))
    have hb' := loadChunk_base h'
    simp only at hb'
    exact loadNext_ends rs z n it' (by omega)

omit [Profile] in
theorem skipTail_ends (rs : RsVec) (z : Bool) : ∀ n b, rs.len - b < n → Ends (skipTail rs z n b)
  | 0, b, h => absurd h (Nat.not_lt_zero _)
  | n + 1, b, h => by
    unfold skipTail
    refine Ends.ite (fun _ => Ends.bind (getUnchecked_ends ..) (fun _ _ => Ends.ite (fun _ => ?_) (fun _ => Ends.pure _)))
      (fun _ => Ends.pure _)
    exact skipTail_ends rs z n (b + 1) (by omega)

theorem new_ends (rs : RsVec) (z : Bool) : Ends (new rs z) := by
  unfold new; ends [getBitsUnchecked_ends, loadChunk_ends]

theorem next_ends (rs : RsVec) (z : Bool) (it : BsIter) : Ends (next rs z it) := by
  have he : ∀ it : BsIter, Ends (emit it) := by
    intro it; unfold emit; ends [idx_ends]
  have ht : ∀ it : BsIter, Ends (emitTail rs z it) := by
    intro it; unfold emitTail
    refine Ends.bind (skipTail_ends rs z _ _ (by omega)) (fun b _ => ?_)
    ends []
  unfold next
  refine Ends.ite (fun _ => Ends.pure _) (fun _ => Ends.ite (fun _ => ?_) (fun _ => he _))
  refine Ends.bind (loadNext_ends rs z _ it (by omega)) (fun p _ => Ends.ite (fun _ => he _) (fun _ => ht _))

end BsIter
theorem addI_ends (a b : Int) : Ends (addI a b) := by
  unfold addI; ends [wrapR_ends]

theorem subI_ends (a b : Int) : Ends (subI a b) := by
  unfold subI; ends [wrapR_ends]

omit [Profile] in
theorem unwrapR_ends {α : Type} (o : Option α) : Ends (unwrapR o) := by
  unfold unwrapR; split <;> exact ⟨fun h => by cases h⟩

omit [Profile] in
theorem assertR_ends (c : Prop) [Decidable c] : Ends (assertR c) := by
  unfold assertR; split <;> exact ⟨fun h => by cases h⟩

namespace MMT

omit [Profile] in
theorem totalExcess_ends (t : MMT) (i : Nat) : Ends (t.totalExcess i) := by
  unfold totalExcess; ends [idx_ends]

omit [Profile] in
theorem inRange_ends (t : MMT) (i : Nat) (e : Int) : Ends (t.inRange i e) := by
  unfold inRange minExcess maxExcess; ends [idx_ends]

theorem inRangeBwd_ends (t : MMT) (i : Nat) (e : Int) : Ends (t.inRangeBwd i e) := by
  unfold inRangeBwd; ends [totalExcess_ends, addI_ends, inRange_ends]

theorem firstLeaf_ends (t : MMT) : Ends (t.firstLeaf) := by
  unfold firstLeaf; ends [dassertR_ends, subR_ends]

theorem isLeaf_ends (t : MMT) (i : Nat) : Ends (t.isLeaf i) := by
  unfold isLeaf; ends [firstLeaf_ends]

omit [Profile] in
theorem leftChild_lt {t : MMT} {i c : Nat} (h : t.leftChild i = some c) : i < c ∧ c < t.nodes.length := by
  unfold leftChild nonZero at h
  split at h
  · split at h
    · cases h
    · injection h with h; omega
  · cases h

omit [Profile] in
theorem rightChild_lt {t : MMT} {i c : Nat} (h : t.rightChild i = some c) : i < c ∧ c < t.nodes.length := by
  unfold rightChild nonZero at h
  split at h
  · split at h
    · cases h
    · injection h with h; omega
  · cases h

omit [Profile] in
theorem parent_lt {t : MMT} {i p q : Nat} (h : unwrapR (t.parent i) = .ok p) (hq : nonZero p = some q) : q < i := by
  unfold parent unwrapR at h
  unfold nonZero at hq
  split at hq
  · cases hq
  · injection hq with hq
    split at h
    · rename_i h'
      split at h'
      · injection h' with h'; injection h with h; omega
      · cases h'
    · cases h

theorem fwdDown_ends (t : MMT) : ∀ n i e, t.nodes.length - i < n → Ends (t.fwdDown n i e)
  | 0, i, e, h => absurd h (Nat.not_lt_zero _)
  | n + 1, i, e, h => by
    unfold fwdDown
    refine Ends.bind (dassertR_ends ..) (fun _ _ => Ends.bind (isLeaf_ends ..) (fun _ _ => Ends.ite (fun _ => Ends.pure _) (fun _ => ?_)))
    cases hl : t.leftChild i with
    | none => exact Ends.unreachable
    | some l =>
      have h1 := leftChild_lt hl
      have := fun e => fwdDown_ends t n l e (by omega)
      simp only
      refine Ends.bind (inRange_ends ..) (fun _ _ => Ends.ite (fun _ => this _) (fun _ => ?_))
      cases hr : t.rightChild i with
      | none => exact Ends.unreachable
      | some r =>
        have h2 := rightChild_lt hr
        have := fun e => fwdDown_ends t n r e (by omega)
        simp only
        ends [totalExcess_ends, subI_ends, inRange_ends, this]

theorem bwdDown_ends (t : MMT) : ∀ n i e, t.nodes.length - i < n → Ends (t.bwdDown n i e)
  | 0, i, e, h => absurd h (Nat.not_lt_zero _)
  | n + 1, i, e, h => by
    unfold bwdDown
    refine Ends.bind (dassertR_ends ..) (fun _ _ => Ends.bind (isLeaf_ends ..) (fun _ _ => Ends.ite (fun _ => Ends.pure _) (fun _ => ?_)))
    cases hr : t.rightChild i with
    | none => exact Ends.unreachable
    | some r =>
      have h1 := rightChild_lt hr
      have := fun e => bwdDown_ends t n r e (by omega)
      simp only
      refine Ends.bind (inRangeBwd_ends ..) (fun _ _ => Ends.ite (fun _ => this _) (fun _ => ?_))
      cases hl : t.leftChild i with
      | none => exact Ends.unreachable
      | some l =>
        have h2 := leftChild_lt hl
        have := fun e => bwdDown_ends t n l e (by omega)
        simp only
        ends [totalExcess_ends, addI_ends, inRangeBwd_ends, this]

theorem fwdUp_ends (t : MMT) {d : Nat} (hd : t.nodes.length < d) : ∀ n i e, i < n → Ends (t.fwdUp d n i e)
  | 0, i, e, h => absurd h (Nat.not_lt_zero _)
  | n + 1, i, e, h => by
    have dn : ∀ i e, Ends (t.fwdDown d i e) := fun i e => fwdDown_ends t d i e (by omega)
    unfold fwdUp
    refine Ends.bind (dassertR_ends ..) (fun _ _ => Ends.ite (fun _ => ?_) (fun _ => ?_))
    · refine Ends.bind (unwrapR_ends _) (fun p hp => ?_)
      cases hq : nonZero p with
      | none => exact Ends.pure _
      | some q => exact fwdUp_ends t hd n q e (by have := parent_lt hp hq; omega)
    · cases t.rightSibling i with
      | none => exact Ends.pure _
      | some r =>
        refine Ends.bind (inRange_ends ..) (fun _ _ => Ends.ite (fun _ => dn _ _) (fun _ => ?_))
        refine Ends.bind (unwrapR_ends _) (fun p hp => ?_)
        cases hq : nonZero p with
        | none => exact Ends.pure _
        | some q =>
          have := fun e => fwdUp_ends t hd n q e (by have := parent_lt hp hq; omega)
          simp only
          ends [totalExcess_ends, subI_ends, this]

theorem bwdUp_ends (t : MMT) {d : Nat} (hd : t.nodes.length < d) : ∀ n i e, i < n → Ends (t.bwdUp d n i e)
  | 0, i, e, h => absurd h (Nat.not_lt_zero _)
  | n + 1, i, e, h => by
    have dn : ∀ i e, Ends (t.bwdDown d i e) := fun i e => bwdDown_ends t d i e (by omega)
    unfold bwdUp
    refine Ends.bind (dassertR_ends ..) (fun _ _ => Ends.ite (fun _ => ?_) (fun _ => ?_))
    · refine Ends.bind (unwrapR_ends _) (fun p hp => ?_)
      cases hq : nonZero p with
      | none => exact Ends.pure _
      | some q => exact bwdUp_ends t hd n q e (by have := parent_lt hp hq; omega)
    · cases leftSibling i with
      | none => exact Ends.pure _
      | some r =>
        refine Ends.bind (inRangeBwd_ends ..) (fun _ _ => Ends.ite (fun _ => dn _ _) (fun _ => ?_))
        refine Ends.bind (unwrapR_ends _) (fun p hp => ?_)
        cases hq : nonZero p with
        | none => exact Ends.pure _
        | some q =>
          have := fun e => bwdUp_ends t hd n q e (by have := parent_lt hp hq; omega)
          simp only
          ends [totalExcess_ends, addI_ends, this]

theorem toBlock_ends (f : Nat) (o : Option (Nat × Int)) : Ends (toBlock f o) := by
  unfold toBlock; ends [subR_ends]

omit [Profile] in
theorem nonZero_ok {a b : Nat} (h : unwrapR (nonZero a) = .ok b) : b = a := by
  unfold nonZero unwrapR at h
  by_cases h0 : a = 0
  · rw [if_pos h0] at h; cases h
  · rw [if_neg h0] at h; cases h; rfl

theorem fwdSearch_ends (t : MMT) (s : Nat) (e : Int) : Ends (t.fwdSearch s e) := by
  unfold fwdSearch
  refine Ends.bind (firstLeaf_ends ..) (fun f _ => Ends.ite (fun _ => Ends.pure _) (fun _ => ?_))
  refine Ends.bind (unwrapR_ends _) (fun n hn => ?_)
  have := nonZero_ok hn
  exact Ends.bind (fwdUp_ends t (by omega) _ _ _ (by omega)) (fun _ _ => toBlock_ends ..)

theorem bwdSearch_ends (t : MMT) (s : Nat) (e : Int) : Ends (t.bwdSearch s e) := by
  unfold bwdSearch
  refine Ends.bind (firstLeaf_ends ..) (fun f _ => Ends.ite (fun _ => Ends.pure _) (fun _ => ?_))
  refine Ends.bind (unwrapR_ends _) (fun n hn => ?_)
  have := nonZero_ok hn
  exact Ends.bind (bwdUp_ends t (by omega) _ _ _ (by omega)) (fun _ _ => toBlock_ends ..)

end MMT

omit [Profile] in
theorem setIdx_ends {α : Type} (l : List α) (i : Nat) (x : α) : Ends (setIdx l i x) := by
  unfold setIdx; ends []

namespace Lookup

omit [Profile] in
theorem calcStep8_ends (d : BitVec 8) (n : Nat) (s : Calc8) : Ends (calcStep8 d n s) := by
  unfold calcStep8; ends [idx_ends, setIdx_ends]

omit [Profile] in
theorem calcFwd8_ends (v : Nat) : ∀ n s, Ends (calcFwd8 v n s)
  | 0, s => by unfold calcFwd8; ends []
  | n + 1, s => by
    have := calcFwd8_ends v n
    unfold calcFwd8; ends [this, calcStep8_ends]

omit [Profile] in
theorem calcBwd8_ends (v : Nat) : ∀ n s, Ends (calcBwd8 v n s)
  | 0, s => by unfold calcBwd8; ends []
  | n + 1, s => by
    have := calcBwd8_ends v n
    unfold calcBwd8; ends [this, calcStep8_ends]

omit [Profile] in
theorem encodeQueries_ends : ∀ n e q, Ends (encodeQueries n e q)
  | 0, e, q => by unfold encodeQueries; ends []
  | n + 1, e, q => by
    have := encodeQueries_ends n
    unfold encodeQueries; ends [this, idx_ends, setIdx_ends]

omit [Profile] in
theorem tableLoop8_ends (f : Bool) : ∀ n, Ends (tableLoop8 f n)
  | 0 => by unfold tableLoop8; ends []
  | n + 1 => by
    have := tableLoop8_ends f n
    unfold tableLoop8 entry8; ends [this, calcFwd8_ends, calcBwd8_ends, encodeQueries_ends]

omit [Profile] in
theorem table8_ends (f : Bool) : Ends (table8 f) := by
  unfold table8; ends [tableLoop8_ends]

theorem scanFwd16_ends (b : Nat) : ∀ n i e, Ends (scanFwd16 b n i e)
  | 0, i, e => by unfold scanFwd16; ends []
  | n + 1, i, e => by
    have := scanFwd16_ends b n
    unfold scanFwd16; ends [this, subI_ends]

theorem scanBwd16_ends (b : Nat) : ∀ n e, Ends (scanBwd16 b n e)
  | 0, e => by unfold scanBwd16; ends []
  | n + 1, e => by
    have := scanBwd16_ends b n
    unfold scanBwd16; ends [this, addI_ends]

theorem processFwd_ends (k : Variant) (b : Nat) (e : Int) : Ends (processFwd k b e) := by
  cases k
  · unfold processFwd processFwd8 answer8; ends [table8_ends, idx_ends, dassertR_ends, subI_ends]
  · unfold processFwd processFwd16; ends [idx_ends, scanFwd16_ends, subI_ends]

theorem processBwd_ends (k : Variant) (b : Nat) (e : Int) : Ends (processBwd k b e) := by
  cases k
  · unfold processBwd processBwd8 answer8; ends [table8_ends, idx_ends, dassertR_ends, addI_ends]
  · unfold processBwd processBwd16; ends [idx_ends, scanBwd16_ends, addI_ends]

end Lookup

namespace RsVec

omit [Profile] in
theorem get_ends (rs : RsVec) (p : Nat) : Ends (rs.get p) := by
  unfold get; ends [getUnchecked_ends]

end RsVec

omit [Profile] in
theorem Found.orElse_ends (f : Found) (k : Int → R Found) (h : ∀ e, Ends (k e)) : Ends (f.orElse k) := by
  cases f
  · exact Ends.pure _
  · exact h _

namespace BpTree
open RsVec Lookup

theorem scanFwd_ends (v : RsVec) : ∀ n i e, Ends (scanFwd v n i e)
  | 0, i, e => by unfold scanFwd; ends []
  | n + 1, i, e => by
    have := scanFwd_ends v n
    unfold scanFwd; ends [this, subI_ends, getUnchecked_ends]

theorem scanBwd_ends (v : RsVec) : ∀ n i e, Ends (scanBwd v n i e)
  | 0, i, e => by unfold scanBwd; ends []
  | n + 1, i, e => by
    have := scanBwd_ends v n
    unfold scanBwd; ends [this, addI_ends, getUnchecked_ends]

theorem block_ends (v : RsVec) (k : Variant) (i : Nat) : Ends (block v k i) := by
  unfold block; ends [getBitsUnchecked_ends]

theorem tabFwd_ends (v : RsVec) (k : Variant) : ∀ n i e, Ends (tabFwd v k n i e)
  | 0, i, e => by unfold tabFwd; ends []
  | n + 1, i, e => by
    have := tabFwd_ends v k n
    unfold tabFwd
    exact Ends.bind (block_ends ..) (fun _ _ => Ends.bind (processFwd_ends ..) (fun _ _ => Found.orElse_ends _ _ (fun e => this _ e)))

theorem tabBwd_ends (v : RsVec) (k : Variant) (a : Nat) : ∀ n e, Ends (tabBwd v k a n e)
  | 0, e => by unfold tabBwd; ends []
  | n + 1, e => by
    have := tabBwd_ends v k a n
    unfold tabBwd
    exact Ends.bind (block_ends ..) (fun _ _ => Ends.bind (processBwd_ends ..) (fun _ _ => Found.orElse_ends _ _ (fun e => this e)))

theorem fwdBlock_ends (t : BpTree) (bs : Nat) (k : Variant) (s b : Nat) (e : Int) : Ends (t.fwdBlock bs k s b e) := by
  unfold fwdBlock
  refine Ends.bind (scanFwd_ends ..) (fun _ _ => Found.orElse_ends _ _ (fun e => ?_))
  exact Ends.bind (tabFwd_ends ..) (fun _ _ => Found.orElse_ends _ _ (fun e => scanFwd_ends ..))

theorem bwdBlock_ends (t : BpTree) (bs : Nat) (k : Variant) (s b : Nat) (e : Int) : Ends (t.bwdBlock bs k s b e) := by
  unfold bwdBlock
  refine Ends.bind (subR_ends ..) (fun _ _ => Ends.bind (scanBwd_ends ..) (fun _ _ => Found.orElse_ends _ _ (fun e => ?_)))
  exact tabBwd_ends ..

theorem fwdSearch_ends (t : BpTree) (bs : Nat) (k : Variant) (i : Nat) (e : Int) : Ends (t.fwdSearch bs k i e) := by
  unfold fwdSearch; ends [subR_ends, fwdBlock_ends, MMT.fwdSearch_ends]

theorem bwdSearch_ends (t : BpTree) (bs : Nat) (k : Variant) (i : Nat) (e : Int) : Ends (t.bwdSearch bs k i e) := by
  unfold bwdSearch; ends [bwdBlock_ends, MMT.bwdSearch_ends]

theorem close_ends (t : BpTree) (bs : Nat) (k : Variant) (i : Nat) : Ends (t.close bs k i) := by
  unfold close; ends [fwdSearch_ends]

theorem opening_ends (t : BpTree) (bs : Nat) (k : Variant) (i : Nat) : Ends (t.opening bs k i) := by
  unfold opening; ends [bwdSearch_ends]

theorem enclose_ends (t : BpTree) (bs : Nat) (k : Variant) (i : Nat) : Ends (t.enclose bs k i) := by
  unfold enclose; ends [getUnchecked_ends, bwdSearch_ends]

theorem excess_ends (t : BpTree) (i : Nat) : Ends (t.excess i) := by
  unfold excess; ends [dassertR_ends, addU_ends, rank_ends, subI_ends]

theorem assertNode_ends (t : BpTree) (i : Nat) : Ends (t.assertNode i) := by
  unfold assertNode; ends [get_ends, assertR_ends]

theorem parent_ends (t : BpTree) (bs : Nat) (k : Variant) (i : Nat) : Ends (t.parent bs k i) := by
  unfold parent; ends [assertNode_ends, enclose_ends]

theorem firstChild_ends (t : BpTree) (i : Nat) : Ends (t.firstChild i) := by
  unfold firstChild; ends [assertNode_ends, addU_ends, get_ends]

theorem nextSibling_ends (t : BpTree) (bs : Nat) (k : Variant) (i : Nat) : Ends (t.nextSibling bs k i) := by
  unfold nextSibling; ends [assertNode_ends, get_ends, close_ends]

theorem previousSibling_ends (t : BpTree) (bs : Nat) (k : Variant) (i : Nat) : Ends (t.previousSibling bs k i) := by
  unfold previousSibling; ends [assertNode_ends, get_ends, opening_ends]

theorem lastChild_ends (t : BpTree) (bs : Nat) (k : Variant) (i : Nat) : Ends (t.lastChild bs k i) := by
  unfold lastChild; ends [assertNode_ends, addU_ends, get_ends, opening_ends, close_ends, subR_ends]

theorem nodeIndex_ends (t : BpTree) (i : Nat) : Ends (t.nodeIndex i) := by
  unfold nodeIndex; ends [assertNode_ends, rank_ends]

theorem nodeHandle_ends {t : BpTree} (hf : Fits t.vec) (i : Nat) : Ends (t.nodeHandle i) := by
  unfold nodeHandle; exact select_ends hf ..

theorem isLeaf_ends (t : BpTree) (i : Nat) : Ends (t.isLeaf i) := by
  unfold isLeaf; ends [assertNode_ends, addU_ends, get_ends]

theorem depth_ends (t : BpTree) (i : Nat) : Ends (t.depth i) := by
  unfold depth; ends [assertNode_ends, excess_ends]

theorem size_ends (t : BpTree) : Ends (t.size) := by
  unfold size; ends [rank_ends]

theorem isAncestor_ends (t : BpTree) (bs : Nat) (k : Variant) (i j : Nat) : Ends (t.isAncestor bs k i j) := by
  unfold isAncestor; ends [assertNode_ends, close_ends]

theorem levelAncestor_ends (t : BpTree) (bs : Nat) (k : Variant) (i : Nat) (l : Word) : Ends (t.levelAncestor bs k i l) := by
  unfold levelAncestor; ends [subI_ends, bwdSearch_ends]

theorem levelNext_ends (t : BpTree) (bs : Nat) (k : Variant) (i : Nat) : Ends (t.levelNext bs k i) := by
  unfold levelNext; ends [close_ends, fwdSearch_ends]

theorem levelPrev_ends (t : BpTree) (bs : Nat) (k : Variant) (i : Nat) : Ends (t.levelPrev bs k i) := by
  unfold levelPrev; ends [opening_ends, bwdSearch_ends]

theorem levelLeftmost_ends (t : BpTree) (bs : Nat) (k : Variant) (l : Word) : Ends (t.levelLeftmost bs k l) := by
  unfold levelLeftmost; ends [fwdSearch_ends]

theorem levelRightmost_ends (t : BpTree) (bs : Nat) (k : Variant) (l : Word) : Ends (t.levelRightmost bs k l) := by
  unfold levelRightmost; ends [size_ends, subR_ends, opening_ends, bwdSearch_ends]

theorem subtreeSize_ends (t : BpTree) (bs : Nat) (k : Variant) (i : Nat) : Ends (t.subtreeSize bs k i) := by
  unfold subtreeSize; ends [assertNode_ends, close_ends, rank_ends, subR_ends]

theorem mapOpen_ends (t : BpTree) (bs : Nat) (k : Variant) (o : Option Nat) : Ends (t.mapOpen bs k o) := by
  unfold mapOpen; ends [opening_ends, unwrapR_ends]

theorem dfsPostNext_ends {t : BpTree} (hf : Fits t.vec) (bs : Nat) (k : Variant) (it : SelIter) :
    Ends (t.dfsPostNext bs k it) := by
  unfold dfsPostNext; ends [SelIter.next_ends hf, mapOpen_ends]

theorem takeNext_ends {v : RsVec} (hf : Fits v) (z : Bool) (s : SubIter) : Ends (takeNext v z s) := by
  unfold takeNext skipNext; ends [SelIter.next_ends hf, SelIter.nth_ends hf]

theorem subtreeIter_ends (t : BpTree) (bs : Nat) (k : Variant) (i : Nat) : Ends (t.subtreeIter bs k i) := by
  unfold subtreeIter; ends [assertNode_ends, close_ends, rank_ends, subR_ends, SelIter.new_ends]

theorem subtreePostIter_ends (t : BpTree) (bs : Nat) (k : Variant) (i : Nat) : Ends (t.subtreePostIter bs k i) := by
  unfold subtreePostIter; ends [assertNode_ends, close_ends, rank_ends, subR_ends, SelIter.new_ends]

theorem subtreePostNext_ends {t : BpTree} (hf : Fits t.vec) (bs : Nat) (k : Variant) (s : SubIter) :
    Ends (t.subtreePostNext bs k s) := by
  unfold subtreePostNext; ends [takeNext_ends hf, mapOpen_ends]

theorem childrenIter_ends (t : BpTree) (bs : Nat) (k : Variant) (f : Bool) (i : Nat) : Ends (t.childrenIter bs k f i) := by
  unfold childrenIter; ends [assertNode_ends, firstChild_ends, lastChild_ends]

theorem childrenNext_ends (t : BpTree) (bs : Nat) (k : Variant) (f : Bool) (o : Option Nat) :
    Ends (t.childrenNext bs k f o) := by
  unfold childrenNext; ends [nextSibling_ends, previousSibling_ends]

end BpTree

namespace WM
open RsVec

theorem go_ends (rs : RsVec) (b : Word) (i : Nat) : Ends (go rs b i) := by
  unfold go goZero goOne; ends [rank_ends]

theorem goUp_ends {rs : RsVec} (hf : Fits rs) (b : Word) (i : Nat) : Ends (goUp rs b i) := by
  unfold goUp; ends [select_ends hf, subR_ends]

theorem selectDown_ends {read : Nat → R Word} (hr : ∀ l, Ends (read l)) : ∀ (d : List RsVec) l s, Ends (selectDown read d l s)
  | [], l, s => by unfold selectDown; ends []
  | rs :: d, l, s => by
    have := selectDown_ends hr d
    unfold selectDown; ends [hr, go_ends, this]

theorem selectUp_ends {read : Nat → R Word} (hr : ∀ l, Ends (read l)) : ∀ (d : List RsVec) l s, (∀ rs ∈ d, Fits rs) →
    Ends (selectUp read d l s)
  | [], l, s, _ => by unfold selectUp; ends []
  | rs :: d, l, s, h => by
    have h1 := fun l s => selectUp_ends hr d l s (fun r hm => h r (by simp [hm]))
    have h2 := h rs (by simp)
    unfold selectUp; ends [hr, goUp_ends h2, h1]

theorem readBV_ends (k : Nat) (s : BV) (l : Nat) : Ends (readBV k s l) := by
  unfold readBV BV.getUnchecked; ends [subR_ends, idx_ends]

theorem readU64_ends (k : Nat) (s : Word) (l : Nat) : Ends (readU64 k s l) := by
  unfold readU64; ends [subR_ends, wrapR_ends]

theorem selectGen_ends {m : WM} (hf : ∀ rs ∈ m.data, Fits rs) {read : Nat → R Word} (hr : ∀ l, Ends (read l)) (o r : Nat) :
    Ends (m.selectGen read o r) := by
  unfold selectGen
  refine Ends.bind (selectDown_ends hr ..) (fun _ _ => Ends.bind (addU_ends ..) (fun _ _ => ?_))
  exact selectUp_ends hr _ _ _ hf

end WM

end Vers
