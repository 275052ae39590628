import Verif.SpecProfile
import Verif.Model.Bp
import Verif.Model.Convert
import Verif.Model.EliasFanoIter
import Verif.Model.Mask
import Verif.Model.Rmq
import Verif.Model.RsIter
import Verif.Model.Sparse
import Verif.Model.Wavelet
import Verif.Model.Serde
import Verif.Model.Space
import Verif.Model.BitSet

set_option linter.unusedSimpArgs false
set_option linter.unusedVariables false

/-!
# Debug builds and release builds agree

For every function of the model, the debug build and the release build return the same value or the debug
build panics because of an arithmetic overflow or a failed assertion. One lemma per function, in the order
of the model files. Helper lemmas of `Props/Profile.lean`.
-/

namespace Vers

open Spec

namespace Agree

theorem rfl' {α : Type} (a : R α) : Agree a a := Or.inl rfl

theorem bind {α β : Type} {a a' : R α} {f f' : α → R β} (h : Agree a a') (hf : ∀ x, Agree (f x) (f' x)) :
    Agree (a >>= f) (a' >>= f') := by
  rcases h with h | h | h
  · subst h
    cases a with
    | error e => exact Or.inl rfl
    | ok x => exact hf x
  · subst h; exact Or.inr (Or.inl rfl)
  · subst h; exact Or.inr (Or.inr rfl)

theorem ite {α : Type} {c : Prop} [Decidable c] {a b a' b' : R α} (h1 : c → Agree a a') (h2 : ¬c → Agree b b') :
    Agree (if c then a else b) (if c then a' else b') := by
  by_cases h : c
  · rw [if_pos h, if_pos h]; exact h1 h
  · rw [if_neg h, if_neg h]; exact h2 h

theorem overflow {α : Type} (b : R α) : Agree (.error .overflow) b := Or.inr (Or.inl rfl)

end Agree

/-- Two implementations of a vector agree. -/
structure AgreeV {α : Type} (v w : VecOps α) : Prop where
  len : v.len = w.len
  get : ∀ i, Agree (v.get i) (w.get i)
  getU : ∀ i, Agree (v.getUnchecked i) (w.getUnchecked i)

/-- Two implementations of the closures of the predecessor search agree. -/
structure AgreeS {α : Type} (v w : WM.Search α) : Prop where
  read : ∀ i, Agree (v.read i) (w.read i)
  write : ∀ a b c, Agree (v.write a b c) (w.write a b c)
  quant : ∀ a b c d e, Agree (v.quant a b c d e) (w.quant a b c d e)

macro "agree" "[" ts:term,* "]" : tactic => do
  let alts ← ts.getElems.mapM fun t => `(tactic| with_reducible exact $t ..)
  let alts' ← ts.getElems.mapM fun t => `(tactic| with_reducible apply $t)
  `(tactic| repeat' (first
    | with_reducible exact Agree.rfl' _
    $[| $alts:tactic]*
    | with_reducible (refine Agree.bind ?_ (fun _ => ?_))
    | with_reducible (refine Agree.ite (fun _ => ?_) (fun _ => ?_))
    $[| $alts':tactic]*
    | with_reducible assumption
    | with_reducible solve_by_elim
    | intro _
    | split))

theorem wrapR_agree {α : Type} (x : α) : Agree (@wrapR dbg α x) (@wrapR rel α x) := Or.inr (Or.inl rfl)

theorem dassertR_agree (c : Prop) [Decidable c] : Agree (@dassertR dbg c _) (@dassertR rel c _) := by
  unfold dassertR
  by_cases h : c
  · rw [if_pos h, if_pos h]; exact Agree.rfl' _
  · rw [if_neg h, if_neg h]; exact Or.inr (Or.inr rfl)


theorem subR_agree : ∀ a1 a2, Agree (@subR dbg a1 a2) (@subR rel a1 a2) := by
  intro a1 a2
  unfold subR
  agree [wrapR_agree]

theorem addU_agree : ∀ a1 a2, Agree (@addU dbg a1 a2) (@addU rel a1 a2) := by
  intro a1 a2
  unfold addU
  agree [wrapR_agree]

theorem mulU_agree : ∀ a1 a2, Agree (@mulU dbg a1 a2) (@mulU rel a1 a2) := by
  intro a1 a2
  unfold mulU
  agree [wrapR_agree]

theorem BV.getBitsRaw_agree : ∀ a1 a2 a3, Agree (@BV.getBitsRaw dbg a1 a2 a3) (@BV.getBitsRaw rel a1 a2 a3) := by
  intro a1 a2 a3
  unfold BV.getBitsRaw
  agree [dassertR_agree, addU_agree]

theorem BV.getBitsUnchecked_agree : ∀ a1 a2 a3, Agree (@BV.getBitsUnchecked dbg a1 a2 a3) (@BV.getBitsUnchecked rel a1 a2 a3) := by
  intro a1 a2 a3
  unfold BV.getBitsUnchecked
  agree [BV.getBitsRaw_agree]

theorem BV.getBits_agree : ∀ a1 a2 a3, Agree (@BV.getBits dbg a1 a2 a3) (@BV.getBits rel a1 a2 a3) := by
  intro a1 a2 a3
  unfold BV.getBits
  agree [addU_agree, BV.getBitsUnchecked_agree]

theorem BV.unpackElement_agree : ∀ a1 a2 a3, Agree (@BV.unpackElement dbg a1 a2 a3) (@BV.unpackElement rel a1 a2 a3) := by
  intro a1 a2 a3
  unfold BV.unpackElement
  agree [mulU_agree, BV.getBits_agree]

theorem BV.unpackElementUnchecked_agree : ∀ a1 a2 a3, Agree (@BV.unpackElementUnchecked dbg a1 a2 a3) (@BV.unpackElementUnchecked rel a1 a2 a3) := by
  intro a1 a2 a3
  unfold BV.unpackElementUnchecked
  agree [mulU_agree, BV.getBitsUnchecked_agree]

theorem BV.countZeros_agree : ∀ a1, Agree (@BV.countZeros dbg a1) (@BV.countZeros rel a1) := by
  intro a1
  unfold BV.countZeros
  agree [subR_agree]

theorem BV.splitAtUnchecked_agree : ∀ a1 a2, Agree (@BV.splitAtUnchecked dbg a1 a2) (@BV.splitAtUnchecked rel a1 a2) := by
  intro a1 a2
  unfold BV.splitAtUnchecked
  agree [subR_agree]

theorem BV.splitAt_agree : ∀ a1 a2, Agree (@BV.splitAt dbg a1 a2) (@BV.splitAt rel a1 a2) := by
  intro a1 a2
  unfold BV.splitAt
  agree [BV.splitAtUnchecked_agree]

theorem BV.eq_agree : ∀ a1 a2, Agree (@BV.eq dbg a1 a2) (@BV.eq rel a1 a2) := by
  intro a1 a2
  unfold BV.eq
  agree [subR_agree]

theorem BV.hashInput_agree : ∀ a1, Agree (@BV.hashInput dbg a1) (@BV.hashInput rel a1) := by
  intro a1
  unfold BV.hashInput
  agree [subR_agree]

theorem Masked.getBitsUnchecked_agree : ∀ a1 a2 a3, Agree (@Masked.getBitsUnchecked dbg a1 a2 a3) (@Masked.getBitsUnchecked rel a1 a2 a3) := by
  intro a1 a2 a3
  unfold Masked.getBitsUnchecked
  agree [dassertR_agree, addU_agree]

theorem Masked.getBits_agree : ∀ a1 a2 a3, Agree (@Masked.getBits dbg a1 a2 a3) (@Masked.getBits rel a1 a2 a3) := by
  intro a1 a2 a3
  unfold Masked.getBits
  agree [addU_agree, Masked.getBitsUnchecked_agree]

theorem Masked.countZeros_agree : ∀ a1, Agree (@Masked.countZeros dbg a1) (@Masked.countZeros rel a1) := by
  intro a1
  unfold Masked.countZeros
  agree [subR_agree]

theorem selectInWord_agree : ∀ a1 a2, Agree (@selectInWord dbg a1 a2) (@selectInWord rel a1 a2) := by
  intro a1 a2
  unfold selectInWord
  agree [wrapR_agree]

theorem RsVec.newZeros_agree : ∀ a1 a2 a3 a4, Agree (@RsVec.newZeros dbg a1 a2 a3 a4) (@RsVec.newZeros rel a1 a2 a3 a4) := by
  intro a1 a2 a3 a4
  unfold RsVec.newZeros
  agree [subR_agree]

theorem RsVec.selectStep_agree : ∀ a1 a2 a3 a4 a5 a6, Agree (@RsVec.selectStep dbg a1 a2 a3 a4 a5 a6) (@RsVec.selectStep rel a1 a2 a3 a4 a5 a6) := by
  intro a1 a2 a3 a4 a5 a6
  unfold RsVec.selectStep
  agree [subR_agree]

theorem RsVec.buildStep_agree : ∀ a1 a2 a3 a4 a5, Agree (@RsVec.buildStep dbg a1 a2 a3 a4 a5) (@RsVec.buildStep rel a1 a2 a3 a4 a5) := by
  intro a1 a2 a3 a4 a5
  unfold RsVec.buildStep
  agree [RsVec.newZeros_agree, RsVec.selectStep_agree, subR_agree]

theorem RsVec.buildLoop_agree : ∀ a1 a2 a3 a4 a5, Agree (@RsVec.buildLoop dbg a1 a2 a3 a4 a5) (@RsVec.buildLoop rel a1 a2 a3 a4 a5) := by
  intro a1 a2 a3 a4 a5
  induction a5 generalizing a1 a2 a3 a4 <;> unfold RsVec.buildLoop <;> agree [RsVec.buildStep_agree]

theorem RsVec.dummySelect_agree : ∀ a1 a2 a3, Agree (@RsVec.dummySelect dbg a1 a2 a3) (@RsVec.dummySelect rel a1 a2 a3) := by
  intro a1 a2 a3
  unfold RsVec.dummySelect
  agree [subR_agree, dassertR_agree]

theorem RsVec.fromBitVec_agree : ∀ a1, Agree (@RsVec.fromBitVec dbg a1) (@RsVec.fromBitVec rel a1) := by
  intro a1
  unfold RsVec.fromBitVec
  agree [RsVec.buildLoop_agree, RsVec.dummySelect_agree, subR_agree]

theorem RsVec.superBefore_agree : ∀ a1 a2 a3, Agree (@RsVec.superBefore dbg a1 a2 a3) (@RsVec.superBefore rel a1 a2 a3) := by
  intro a1 a2 a3
  unfold RsVec.superBefore
  agree [subR_agree]

theorem RsVec.rankBlockBefore_agree : ∀ a1 a2 a3, Agree (@RsVec.rankBlockBefore dbg a1 a2 a3) (@RsVec.rankBlockBefore rel a1 a2 a3) := by
  intro a1 a2 a3
  unfold RsVec.rankBlockBefore
  agree [subR_agree]

theorem RsVec.rank_agree : ∀ a1 a2 a3, Agree (@RsVec.rank dbg a1 a2 a3) (@RsVec.rank rel a1 a2 a3) := by
  intro a1 a2 a3
  unfold RsVec.rank
  agree [RsVec.superBefore_agree, RsVec.rankBlockBefore_agree]

theorem RsVec.getBitsUnchecked_agree : ∀ a1 a2 a3, Agree (@RsVec.getBitsUnchecked dbg a1 a2 a3) (@RsVec.getBitsUnchecked rel a1 a2 a3) := by
  intro a1 a2 a3
  unfold RsVec.getBitsUnchecked
  agree [BV.getBitsRaw_agree]

theorem RsVec.getBits_agree : ∀ a1 a2 a3, Agree (@RsVec.getBits dbg a1 a2 a3) (@RsVec.getBits rel a1 a2 a3) := by
  intro a1 a2 a3
  unfold RsVec.getBits
  agree [addU_agree, RsVec.getBitsUnchecked_agree]

theorem RsVec.searchSuperKey_agree : ∀ a1 a2 a3, Agree (@RsVec.searchSuperKey dbg a1 a2 a3) (@RsVec.searchSuperKey rel a1 a2 a3) := by
  intro a1 a2 a3
  unfold RsVec.searchSuperKey
  agree [subR_agree]

theorem RsVec.searchSuperBin_agree : ∀ a1 a2 a3 a4 a5 a6, Agree (@RsVec.searchSuperBin dbg a1 a2 a3 a4 a5 a6) (@RsVec.searchSuperBin rel a1 a2 a3 a4 a5 a6) := by
  intro a1 a2 a3 a4 a5 a6
  induction a4 generalizing a1 a2 a3 a5 a6 <;> unfold RsVec.searchSuperBin <;> agree [subR_agree, RsVec.searchSuperKey_agree]

theorem RsVec.searchSuperLin_agree : ∀ a1 a2 a3 a4 a5, Agree (@RsVec.searchSuperLin dbg a1 a2 a3 a4 a5) (@RsVec.searchSuperLin rel a1 a2 a3 a4 a5) := by
  intro a1 a2 a3 a4 a5
  induction a4 generalizing a1 a2 a3 a5 <;> unfold RsVec.searchSuperLin <;> agree [RsVec.superBefore_agree]

theorem RsVec.searchSuper_agree : ∀ a1 a2 a3 a4 a5, Agree (@RsVec.searchSuper dbg a1 a2 a3 a4 a5) (@RsVec.searchSuper rel a1 a2 a3 a4 a5) := by
  intro a1 a2 a3 a4 a5
  unfold RsVec.searchSuper
  agree [RsVec.searchSuperBin_agree, RsVec.searchSuperLin_agree]

theorem RsVec.blockBefore_agree : ∀ a1 a2 a3 a4, Agree (@RsVec.blockBefore dbg a1 a2 a3 a4) (@RsVec.blockBefore rel a1 a2 a3 a4) := by
  intro a1 a2 a3 a4
  unfold RsVec.blockBefore
  agree [subR_agree]

theorem RsVec.searchBlockStep_agree : ∀ a1 a2 a3 a4 a5 a6, Agree (@RsVec.searchBlockStep dbg a1 a2 a3 a4 a5 a6) (@RsVec.searchBlockStep rel a1 a2 a3 a4 a5 a6) := by
  intro a1 a2 a3 a4 a5 a6
  induction a6 generalizing a1 a2 a3 a4 a5 <;> unfold RsVec.searchBlockStep <;> agree [RsVec.blockBefore_agree]

theorem RsVec.searchBlock_agree : ∀ a1 a2 a3 a4, Agree (@RsVec.searchBlock dbg a1 a2 a3 a4) (@RsVec.searchBlock rel a1 a2 a3 a4) := by
  intro a1 a2 a3 a4
  unfold RsVec.searchBlock
  agree [RsVec.searchBlockStep_agree]

theorem RsVec.searchWordStep_agree : ∀ a1 a2 a3 a4 a5 a6, Agree (@RsVec.searchWordStep dbg a1 a2 a3 a4 a5 a6) (@RsVec.searchWordStep rel a1 a2 a3 a4 a5 a6) := by
  intro a1 a2 a3 a4 a5 a6
  induction a4 generalizing a1 a2 a3 a5 a6 <;> unfold RsVec.searchWordStep <;> agree [selectInWord_agree]

theorem RsVec.searchWord_agree : ∀ a1 a2 a3 a4, Agree (@RsVec.searchWord dbg a1 a2 a3 a4) (@RsVec.searchWord rel a1 a2 a3 a4) := by
  intro a1 a2 a3 a4
  unfold RsVec.searchWord
  agree [RsVec.searchWordStep_agree]

theorem RsVec.selectSuper_agree : ∀ a1 a2 a3 a4, Agree (@RsVec.selectSuper dbg a1 a2 a3 a4) (@RsVec.selectSuper rel a1 a2 a3 a4) := by
  intro a1 a2 a3 a4
  unfold RsVec.selectSuper
  agree [RsVec.superBefore_agree, RsVec.searchSuper_agree]

theorem RsVec.select_agree : ∀ a1 a2 a3 a4, Agree (@RsVec.select dbg a1 a2 a3 a4) (@RsVec.select rel a1 a2 a3 a4) := by
  intro a1 a2 a3 a4
  unfold RsVec.select
  agree [RsVec.selectSuper_agree, RsVec.superBefore_agree, subR_agree, RsVec.searchBlock_agree, RsVec.blockBefore_agree, RsVec.searchWord_agree]

theorem RsVec.searchBlockSimd_agree : ∀ a1 a2 a3 a4, Agree (@RsVec.searchBlockSimd dbg a1 a2 a3 a4) (@RsVec.searchBlockSimd rel a1 a2 a3 a4) := by
  intro a1 a2 a3 a4
  unfold RsVec.searchBlockSimd
  agree [dassertR_agree, RsVec.searchBlock_agree]

theorem RsVec.selectSimd_agree : ∀ a1 a2 a3, Agree (@RsVec.selectSimd dbg a1 a2 a3) (@RsVec.selectSimd rel a1 a2 a3) := by
  intro a1 a2 a3
  unfold RsVec.selectSimd
  agree [RsVec.selectSuper_agree, RsVec.superBefore_agree, subR_agree, RsVec.searchBlockSimd_agree, RsVec.blockBefore_agree, RsVec.searchWord_agree]

theorem SelIter.new_agree : ∀ a1 a2, Agree (@SelIter.new dbg a1 a2) (@SelIter.new rel a1 a2) := by
  intro a1 a2
  unfold SelIter.new
  agree [subR_agree]

theorem SelIter.fwdSuperHit_agree : ∀ a1 a2 a3, Agree (@SelIter.fwdSuperHit dbg a1 a2 a3) (@SelIter.fwdSuperHit rel a1 a2 a3) := by
  intro a1 a2 a3
  unfold SelIter.fwdSuperHit
  agree [RsVec.superBefore_agree]

theorem SelIter.fwdBlockHit_agree : ∀ a1 a2 a3 a4, Agree (@SelIter.fwdBlockHit dbg a1 a2 a3 a4) (@SelIter.fwdBlockHit rel a1 a2 a3 a4) := by
  intro a1 a2 a3 a4
  unfold SelIter.fwdBlockHit
  agree [RsVec.blockBefore_agree]

theorem SelIter.useBlock_agree : ∀ a1 a2 a3 a4 a5 a6, Agree (@SelIter.useBlock dbg a1 a2 a3 a4 a5 a6) (@SelIter.useBlock rel a1 a2 a3 a4 a5 a6) := by
  intro a1 a2 a3 a4 a5 a6
  unfold SelIter.useBlock
  agree [RsVec.blockBefore_agree, subR_agree]

theorem SelIter.missSuper_agree : ∀ a1 a2 a3 a4, Agree (@SelIter.missSuper dbg a1 a2 a3 a4) (@SelIter.missSuper rel a1 a2 a3 a4) := by
  intro a1 a2 a3 a4
  unfold SelIter.missSuper
  agree [RsVec.searchSuper_agree, RsVec.superBefore_agree, subR_agree]

theorem SelIter.fwdLocate_agree : ∀ a1 a2 a3, Agree (@SelIter.fwdLocate dbg a1 a2 a3) (@SelIter.fwdLocate rel a1 a2 a3) := by
  intro a1 a2 a3
  unfold SelIter.fwdLocate
  agree [SelIter.fwdSuperHit_agree, RsVec.superBefore_agree, subR_agree, SelIter.fwdBlockHit_agree, SelIter.useBlock_agree, SelIter.missSuper_agree]

theorem SelIter.searchBlockV_agree : ∀ a1 a2 a3 a4 a5, Agree (@SelIter.searchBlockV dbg a1 a2 a3 a4 a5) (@SelIter.searchBlockV rel a1 a2 a3 a4 a5) := by
  intro a1 a2 a3 a4 a5
  unfold SelIter.searchBlockV
  agree [RsVec.searchBlockSimd_agree, RsVec.searchBlock_agree]

theorem SelIter.finish_agree : ∀ a1 a2 a3 a4 a5 a6, Agree (@SelIter.finish dbg a1 a2 a3 a4 a5 a6) (@SelIter.finish rel a1 a2 a3 a4 a5 a6) := by
  intro a1 a2 a3 a4 a5 a6
  unfold SelIter.finish
  agree [SelIter.searchBlockV_agree, RsVec.blockBefore_agree, subR_agree, RsVec.searchWord_agree]

theorem SelIter.next_agree : ∀ a1 a2 a3 a4, Agree (@SelIter.next dbg a1 a2 a3 a4) (@SelIter.next rel a1 a2 a3 a4) := by
  intro a1 a2 a3 a4
  unfold SelIter.next
  agree [SelIter.fwdLocate_agree, SelIter.finish_agree]

theorem SelIter.bwdLocate_agree : ∀ a1 a2 a3 a4, Agree (@SelIter.bwdLocate dbg a1 a2 a3 a4) (@SelIter.bwdLocate rel a1 a2 a3 a4) := by
  intro a1 a2 a3 a4
  unfold SelIter.bwdLocate
  agree [RsVec.superBefore_agree, subR_agree, RsVec.blockBefore_agree, SelIter.useBlock_agree, SelIter.missSuper_agree]

theorem SelIter.nextBack_agree : ∀ a1 a2 a3 a4, Agree (@SelIter.nextBack dbg a1 a2 a3 a4) (@SelIter.nextBack rel a1 a2 a3 a4) := by
  intro a1 a2 a3 a4
  unfold SelIter.nextBack
  agree [SelIter.bwdLocate_agree, SelIter.finish_agree]

theorem SelIter.subBack_agree : ∀ a1 a2, Agree (@SelIter.subBack dbg a1 a2) (@SelIter.subBack rel a1 a2) := by
  intro a1 a2
  unfold SelIter.subBack
  agree [subR_agree]

theorem SelIter.advanceBackBy_agree : ∀ a1 a2, Agree (@SelIter.advanceBackBy dbg a1 a2) (@SelIter.advanceBackBy rel a1 a2) := by
  intro a1 a2
  unfold SelIter.advanceBackBy
  agree [SelIter.subBack_agree]

theorem SelIter.nth_agree : ∀ a1 a2 a3 a4 a5, Agree (@SelIter.nth dbg a1 a2 a3 a4 a5) (@SelIter.nth rel a1 a2 a3 a4 a5) := by
  intro a1 a2 a3 a4 a5
  unfold SelIter.nth
  agree [SelIter.next_agree]

theorem SelIter.nthBack_agree : ∀ a1 a2 a3 a4 a5, Agree (@SelIter.nthBack dbg a1 a2 a3 a4 a5) (@SelIter.nthBack rel a1 a2 a3 a4 a5) := by
  intro a1 a2 a3 a4 a5
  unfold SelIter.nthBack
  agree [SelIter.advanceBackBy_agree, SelIter.nextBack_agree]

theorem SelIter.last_agree : ∀ a1 a2 a3 a4, Agree (@SelIter.last dbg a1 a2 a3 a4) (@SelIter.last rel a1 a2 a3 a4) := by
  intro a1 a2 a3 a4
  unfold SelIter.last
  agree [SelIter.nth_agree]

theorem SelIter.step_agree : ∀ a1 a2 a3 a4, Agree (@SelIter.step dbg a1 a2 a3 a4) (@SelIter.step rel a1 a2 a3 a4) := by
  intro a1 a2 a3 a4
  unfold SelIter.step
  agree [SelIter.next_agree, SelIter.nextBack_agree, SelIter.nth_agree, SelIter.nthBack_agree]

theorem SelIter.stepSimd_agree : ∀ a1 a2 a3 a4, Agree (@SelIter.stepSimd dbg a1 a2 a3 a4) (@SelIter.stepSimd rel a1 a2 a3 a4) := by
  intro a1 a2 a3 a4
  unfold SelIter.stepSimd
  agree [SelIter.next_agree, SelIter.nextBack_agree, SelIter.nth_agree, SelIter.nthBack_agree]

theorem RsVec.sparseLoop_agree : ∀ a1 a2 a3 a4 a5 a6 a7, Agree (@RsVec.sparseLoop dbg a1 a2 a3 a4 a5 a6 a7) (@RsVec.sparseLoop rel a1 a2 a3 a4 a5 a6 a7) := by
  intro a1 a2 a3 a4 a5 a6 a7
  induction a5 generalizing a1 a2 a3 a4 a6 a7 <;> unfold RsVec.sparseLoop <;> agree [SelIter.next_agree, RsVec.rank_agree]

theorem RsVec.sparseEquals_agree : ∀ a1 a2 a3 a4, Agree (@RsVec.sparseEquals dbg a1 a2 a3 a4) (@RsVec.sparseEquals rel a1 a2 a3 a4) := by
  intro a1 a2 a3 a4
  unfold RsVec.sparseEquals
  agree [SelIter.new_agree, RsVec.sparseLoop_agree]

theorem RsVec.eq_agree : ∀ a1 a2 a3, Agree (@RsVec.eq dbg a1 a2 a3) (@RsVec.eq rel a1 a2 a3) := by
  intro a1 a2 a3
  unfold RsVec.eq
  agree [RsVec.sparseEquals_agree]

theorem GenIter.advanceErr_agree : ∀ a1 a2, Agree (@GenIter.advanceErr dbg a1 a2) (@GenIter.advanceErr rel a1 a2) := by
  intro a1 a2
  unfold GenIter.advanceErr
  agree [subR_agree]

theorem GenIter.advanceBy_agree : ∀ a1 a2, Agree (@GenIter.advanceBy dbg a1 a2) (@GenIter.advanceBy rel a1 a2) := by
  intro a1 a2
  unfold GenIter.advanceBy
  agree [addU_agree, subR_agree, GenIter.advanceErr_agree]

theorem GenIter.advanceBackBy_agree : ∀ a1 a2, Agree (@GenIter.advanceBackBy dbg a1 a2) (@GenIter.advanceBackBy rel a1 a2) := by
  intro a1 a2
  unfold GenIter.advanceBackBy
  agree [subR_agree]

theorem GenIter.next_agree : ∀ a0 a1 a1' a2, (AgreeV a1 a1') → Agree (@GenIter.next a0 a1 a2) (@GenIter.next a0 a1' a2) := by
  intro a0 a1 a1' a2 ha1
  unfold GenIter.next
  agree [ha1.get, ha1.getU]

theorem GenIter.nextBack_agree : ∀ a0 a1 a1' a2, (AgreeV a1 a1') → Agree (@GenIter.nextBack a0 a1 a2) (@GenIter.nextBack a0 a1' a2) := by
  intro a0 a1 a1' a2 ha1
  unfold GenIter.nextBack
  agree [ha1.get, ha1.getU]

theorem GenIter.last_agree : ∀ a0 a1 a1' a2, (AgreeV a1 a1') → Agree (@GenIter.last a0 a1 a2) (@GenIter.last a0 a1' a2) := by
  intro a0 a1 a1' a2 ha1
  unfold GenIter.last
  agree [ha1.get, ha1.getU]

theorem GenIter.nth_agree : ∀ a1 a2 a2' a3 a4, (AgreeV a2 a2') → Agree (@GenIter.nth dbg a1 a2 a3 a4) (@GenIter.nth rel a1 a2' a3 a4) := by
  intro a1 a2 a2' a3 a4 ha2
  unfold GenIter.nth
  agree [GenIter.advanceBy_agree, GenIter.next_agree, ha2.get, ha2.getU]

theorem GenIter.nthBack_agree : ∀ a1 a2 a2' a3 a4, (AgreeV a2 a2') → Agree (@GenIter.nthBack dbg a1 a2 a3 a4) (@GenIter.nthBack rel a1 a2' a3 a4) := by
  intro a1 a2 a2' a3 a4 ha2
  unfold GenIter.nthBack
  agree [GenIter.advanceBackBy_agree, GenIter.nextBack_agree, ha2.get, ha2.getU]

theorem GenIter.step_agree : ∀ a1 a2 a2' a3 a4, (AgreeV a2 a2') → Agree (@GenIter.step dbg a1 a2 a3 a4) (@GenIter.step rel a1 a2' a3 a4) := by
  intro a1 a2 a2' a3 a4 ha2
  unfold GenIter.step
  agree [GenIter.next_agree, GenIter.nextBack_agree, GenIter.nth_agree, GenIter.nthBack_agree, ha2.get, ha2.getU]

theorem addW_agree : ∀ a1 a2, Agree (@addW dbg a1 a2) (@addW rel a1 a2) := by
  intro a1 a2
  unfold addW
  agree [wrapR_agree]

theorem subW_agree : ∀ a1 a2, Agree (@subW dbg a1 a2) (@subW rel a1 a2) := by
  intro a1 a2
  unfold subW
  agree [wrapR_agree]

theorem EF.fillLoop_agree : ∀ a1 a2 a3 a4 a5 a6, Agree (@EF.fillLoop dbg a1 a2 a3 a4 a5 a6) (@EF.fillLoop rel a1 a2 a3 a4 a5 a6) := by
  intro a1 a2 a3 a4 a5 a6
  induction a6 generalizing a1 a2 a3 a4 a5 <;> unfold EF.fillLoop <;> agree [subW_agree, addU_agree]

theorem EF.fromNonEmpty_agree : ∀ a1 a2, Agree (@EF.fromNonEmpty dbg a1 a2) (@EF.fromNonEmpty rel a1 a2) := by
  intro a1 a2
  unfold EF.fromNonEmpty
  agree [dassertR_agree, subW_agree, subR_agree, addU_agree, mulU_agree, EF.fillLoop_agree, RsVec.fromBitVec_agree]

theorem EF.fromSlice_agree : ∀ a1 a2, Agree (@EF.fromSlice dbg a1 a2) (@EF.fromSlice rel a1 a2) := by
  intro a1 a2
  unfold EF.fromSlice
  agree [RsVec.fromBitVec_agree, EF.fromNonEmpty_agree]

theorem EF.lowAt_agree : ∀ a1 a2, Agree (@EF.lowAt dbg a1 a2) (@EF.lowAt rel a1 a2) := by
  intro a1 a2
  unfold EF.lowAt
  agree [mulU_agree, BV.getBitsUnchecked_agree]

theorem EF.getUnchecked_agree : ∀ a1 a2 a3, Agree (@EF.getUnchecked dbg a1 a2 a3) (@EF.getUnchecked rel a1 a2 a3) := by
  intro a1 a2 a3
  unfold EF.getUnchecked
  agree [RsVec.select_agree, subR_agree, EF.lowAt_agree, addW_agree]

theorem EF.get_agree : ∀ a1 a2, Agree (@EF.get dbg a1 a2) (@EF.get rel a1 a2) := by
  intro a1 a2
  unfold EF.get
  agree [EF.getUnchecked_agree]

theorem EF.binWalk_agree : ∀ a1 a2 a3 a4 a5, Agree (@EF.binWalk dbg a1 a2 a3 a4 a5) (@EF.binWalk rel a1 a2 a3 a4 a5) := by
  intro a1 a2 a3 a4 a5
  induction a4 generalizing a1 a2 a3 a5 <;> unfold EF.binWalk <;> agree [EF.lowAt_agree]

theorem EF.binHit_agree : ∀ a1 a2 a3 a4 a5 a6 a7, Agree (@EF.binHit dbg a1 a2 a3 a4 a5 a6 a7) (@EF.binHit rel a1 a2 a3 a4 a5 a6 a7) := by
  intro a1 a2 a3 a4 a5 a6 a7
  unfold EF.binHit
  agree [EF.binWalk_agree, addW_agree]

theorem EF.binLoop_agree : ∀ a1 a2 a3 a4 a5 a6 a7 a8 a9, Agree (@EF.binLoop dbg a1 a2 a3 a4 a5 a6 a7 a8 a9) (@EF.binLoop rel a1 a2 a3 a4 a5 a6 a7 a8 a9) := by
  intro a1 a2 a3 a4 a5 a6 a7 a8 a9
  induction a6 generalizing a1 a2 a3 a4 a5 a7 a8 a9 <;> unfold EF.binLoop <;> agree [subR_agree, EF.lowAt_agree, EF.binHit_agree]

theorem EF.binTail_agree : ∀ a1 a2 a3 a4 a5 a6, Agree (@EF.binTail dbg a1 a2 a3 a4 a5 a6) (@EF.binTail rel a1 a2 a3 a4 a5 a6) := by
  intro a1 a2 a3 a4 a5 a6
  unfold EF.binTail
  agree [addW_agree]

theorem EF.binFinish_agree : ∀ a1 a2 a3 a4 a5 a6 a7 a8, Agree (@EF.binFinish dbg a1 a2 a3 a4 a5 a6 a7 a8) (@EF.binFinish rel a1 a2 a3 a4 a5 a6 a7 a8) := by
  intro a1 a2 a3 a4 a5 a6 a7 a8
  unfold EF.binFinish
  agree [EF.lowAt_agree, addW_agree, EF.binTail_agree]

theorem EF.blockEnd_agree : ∀ a1 a2 a3 a4, Agree (@EF.blockEnd dbg a1 a2 a3 a4) (@EF.blockEnd rel a1 a2 a3 a4) := by
  intro a1 a2 a3 a4
  unfold EF.blockEnd
  agree [RsVec.select_agree, subR_agree]

theorem EF.binSearch_agree : ∀ a1 a2 a3 a4 a5 a6 a7 a8 a9 a10 a11, Agree (@EF.binSearch dbg a1 a2 a3 a4 a5 a6 a7 a8 a9 a10 a11) (@EF.binSearch rel a1 a2 a3 a4 a5 a6 a7 a8 a9 a10 a11) := by
  intro a1 a2 a3 a4 a5 a6 a7 a8 a9 a10 a11
  unfold EF.binSearch
  agree [EF.blockEnd_agree, EF.binLoop_agree, EF.binFinish_agree]

theorem EF.linear_agree : ∀ a1 a2 a3 a4 a5 a6 a7 a8 a9 a10 a11 a12 a13, Agree (@EF.linear dbg a1 a2 a3 a4 a5 a6 a7 a8 a9 a10 a11 a12 a13) (@EF.linear rel a1 a2 a3 a4 a5 a6 a7 a8 a9 a10 a11 a12 a13) := by
  intro a1 a2 a3 a4 a5 a6 a7 a8 a9 a10 a11 a12 a13
  induction a11 generalizing a1 a2 a3 a4 a5 a6 a7 a8 a9 a10 a12 a13 <;> unfold EF.linear <;> agree [EF.binSearch_agree, EF.lowAt_agree, addW_agree]

theorem EF.searchOutside_agree : ∀ a1 a2 a3 a4 a5, Agree (@EF.searchOutside dbg a1 a2 a3 a4 a5) (@EF.searchOutside rel a1 a2 a3 a4 a5) := by
  intro a1 a2 a3 a4 a5
  unfold EF.searchOutside
  agree [EF.getUnchecked_agree]

theorem EF.search_agree : ∀ a1 a2 a3 a4 a5 a6 a7 a8 a9 a10 a11, Agree (@EF.search dbg a1 a2 a3 a4 a5 a6 a7 a8 a9 a10 a11) (@EF.search rel a1 a2 a3 a4 a5 a6 a7 a8 a9 a10 a11) := by
  intro a1 a2 a3 a4 a5 a6 a7 a8 a9 a10 a11
  unfold EF.search
  agree [EF.lowAt_agree, EF.linear_agree, EF.searchOutside_agree]

theorem EF.predecessorUnchecked_agree : ∀ a1 a2 a3 a4, Agree (@EF.predecessorUnchecked dbg a1 a2 a3 a4) (@EF.predecessorUnchecked rel a1 a2 a3 a4) := by
  intro a1 a2 a3 a4
  unfold EF.predecessorUnchecked
  agree [subR_agree, EF.getUnchecked_agree, subW_agree, RsVec.select_agree, EF.search_agree]

theorem EF.predecessor_agree : ∀ a1 a2 a3 a4, Agree (@EF.predecessor dbg a1 a2 a3 a4) (@EF.predecessor rel a1 a2 a3 a4) := by
  intro a1 a2 a3 a4
  unfold EF.predecessor
  agree [EF.predecessorUnchecked_agree]

theorem EF.successorUnchecked_agree : ∀ a1 a2 a3 a4, Agree (@EF.successorUnchecked dbg a1 a2 a3 a4) (@EF.successorUnchecked rel a1 a2 a3 a4) := by
  intro a1 a2 a3 a4
  unfold EF.successorUnchecked
  agree [EF.getUnchecked_agree, subW_agree, addU_agree, RsVec.select_agree, subR_agree, EF.search_agree]

theorem EF.successor_agree : ∀ a1 a2 a3 a4, Agree (@EF.successor dbg a1 a2 a3 a4) (@EF.successor rel a1 a2 a3 a4) := by
  intro a1 a2 a3 a4
  unfold EF.successor
  agree [EF.successorUnchecked_agree]

theorem EF.deltaFar_agree : ∀ a1 a2 a3, Agree (@EF.deltaFar dbg a1 a2 a3) (@EF.deltaFar rel a1 a2 a3) := by
  intro a1 a2 a3
  unfold EF.deltaFar
  agree [subR_agree, EF.lowAt_agree, addW_agree, RsVec.select_agree, subW_agree]

theorem EF.delta_agree : ∀ a1 a2, Agree (@EF.delta dbg a1 a2) (@EF.delta rel a1 a2) := by
  intro a1 a2
  unfold EF.delta
  agree [RsVec.select_agree, subR_agree, EF.lowAt_agree, subW_agree, EF.deltaFar_agree]

theorem EF.rank_agree : ∀ a1 a2 a3 a4, Agree (@EF.rank dbg a1 a2 a3 a4) (@EF.rank rel a1 a2 a3 a4) := by
  intro a1 a2 a3 a4
  unfold EF.rank
  agree [subW_agree, RsVec.select_agree, subR_agree, EF.search_agree]

theorem EfIter.new_agree : ∀ a1, Agree (@EfIter.new dbg a1) (@EfIter.new rel a1) := by
  intro a1
  unfold EfIter.new
  agree [SelIter.new_agree]

theorem EfIter.combine_agree : ∀ a1 a2 a3, Agree (@EfIter.combine dbg a1 a2 a3) (@EfIter.combine rel a1 a2 a3) := by
  intro a1 a2 a3
  unfold EfIter.combine
  agree [subR_agree, EF.lowAt_agree]

theorem EfIter.advanceBy_agree : ∀ a1 a2 a3, Agree (@EfIter.advanceBy dbg a1 a2 a3) (@EfIter.advanceBy rel a1 a2 a3) := by
  intro a1 a2 a3
  unfold EfIter.advanceBy
  agree [GenIter.advanceBy_agree, SelIter.nth_agree]

theorem EfIter.advanceBackBy_agree : ∀ a1 a2 a3, Agree (@EfIter.advanceBackBy dbg a1 a2 a3) (@EfIter.advanceBackBy rel a1 a2 a3) := by
  intro a1 a2 a3
  unfold EfIter.advanceBackBy
  agree [GenIter.advanceBackBy_agree, SelIter.nthBack_agree]

theorem EfIter.next_agree : ∀ a1 a2, Agree (@EfIter.next dbg a1 a2) (@EfIter.next rel a1 a2) := by
  intro a1 a2
  unfold EfIter.next
  agree [SelIter.next_agree, EfIter.combine_agree, addW_agree]

theorem EfIter.nextBack_agree : ∀ a1 a2, Agree (@EfIter.nextBack dbg a1 a2) (@EfIter.nextBack rel a1 a2) := by
  intro a1 a2
  unfold EfIter.nextBack
  agree [SelIter.nextBack_agree, EfIter.combine_agree, addW_agree]

theorem EfIter.nth_agree : ∀ a1 a2 a3, Agree (@EfIter.nth dbg a1 a2 a3) (@EfIter.nth rel a1 a2 a3) := by
  intro a1 a2 a3
  unfold EfIter.nth
  agree [EfIter.advanceBy_agree, EfIter.next_agree]

theorem EfIter.nthBack_agree : ∀ a1 a2 a3, Agree (@EfIter.nthBack dbg a1 a2 a3) (@EfIter.nthBack rel a1 a2 a3) := by
  intro a1 a2 a3
  unfold EfIter.nthBack
  agree [EfIter.advanceBackBy_agree, EfIter.nextBack_agree]

theorem EfIter.last_agree : ∀ a1 a2, Agree (@EfIter.last dbg a1 a2) (@EfIter.last rel a1 a2) := by
  intro a1 a2
  unfold EfIter.last
  agree [SelIter.last_agree, EfIter.combine_agree]

theorem EfIter.minItem_agree : ∀ a1 a2, Agree (@EfIter.minItem dbg a1 a2) (@EfIter.minItem rel a1 a2) := by
  intro a1 a2
  unfold EfIter.minItem
  agree [EfIter.next_agree]

theorem EfIter.step_agree : ∀ a1 a2 a3, Agree (@EfIter.step dbg a1 a2 a3) (@EfIter.step rel a1 a2 a3) := by
  intro a1 a2 a3
  unfold EfIter.step
  agree [EfIter.next_agree, EfIter.nextBack_agree, EfIter.nth_agree, EfIter.nthBack_agree]

theorem Sparse.new_agree : ∀ a1 a2 a3, Agree (@Sparse.new dbg a1 a2 a3) (@Sparse.new rel a1 a2 a3) := by
  intro a1 a2 a3
  unfold Sparse.new
  agree [dassertR_agree, EF.fromSlice_agree]

theorem Sparse.fromBitVec_agree : ∀ a1 a2, Agree (@Sparse.fromBitVec dbg a1 a2) (@Sparse.fromBitVec rel a1 a2) := by
  intro a1 a2
  unfold Sparse.fromBitVec
  agree [Sparse.new_agree]

theorem Sparse.fromBitVecInverted_agree : ∀ a1 a2, Agree (@Sparse.fromBitVecInverted dbg a1 a2) (@Sparse.fromBitVecInverted rel a1 a2) := by
  intro a1 a2
  unfold Sparse.fromBitVecInverted
  agree [Sparse.new_agree]

theorem Sparse.convert_agree : ∀ a1 a2, Agree (@Sparse.convert dbg a1 a2) (@Sparse.convert rel a1 a2) := by
  intro a1 a2
  unfold Sparse.convert
  agree [Sparse.fromBitVecInverted_agree]

theorem Sparse.isSetUnchecked_agree : ∀ a1 a2, Agree (@Sparse.isSetUnchecked dbg a1 a2) (@Sparse.isSetUnchecked rel a1 a2) := by
  intro a1 a2
  unfold Sparse.isSetUnchecked
  agree [EF.predecessorUnchecked_agree]

theorem Sparse.isSet_agree : ∀ a1 a2, Agree (@Sparse.isSet dbg a1 a2) (@Sparse.isSet rel a1 a2) := by
  intro a1 a2
  unfold Sparse.isSet
  agree [EF.predecessor_agree]

theorem Sparse.getUnchecked_agree : ∀ a1 a2, Agree (@Sparse.getUnchecked dbg a1 a2) (@Sparse.getUnchecked rel a1 a2) := by
  intro a1 a2
  unfold Sparse.getUnchecked
  agree [Sparse.isSetUnchecked_agree]

theorem Sparse.get_agree : ∀ a1 a2, Agree (@Sparse.get dbg a1 a2) (@Sparse.get rel a1 a2) := by
  intro a1 a2
  unfold Sparse.get
  agree [Sparse.isSet_agree]

theorem Sparse.select1_agree : ∀ a1 a2, Agree (@Sparse.select1 dbg a1 a2) (@Sparse.select1 rel a1 a2) := by
  intro a1 a2
  unfold Sparse.select1
  agree [EF.get_agree]

theorem Sparse.rank1_agree : ∀ a1 a2, Agree (@Sparse.rank1 dbg a1 a2) (@Sparse.rank1 rel a1 a2) := by
  intro a1 a2
  unfold Sparse.rank1
  agree [EF.rank_agree]

theorem Sparse.rank0_agree : ∀ a1 a2, Agree (@Sparse.rank0 dbg a1 a2) (@Sparse.rank0 rel a1 a2) := by
  intro a1 a2
  unfold Sparse.rank0
  agree [EF.rank_agree, subW_agree]

theorem Sparse.iter1_agree : ∀ a1, Agree (@Sparse.iter1 dbg a1) (@Sparse.iter1 rel a1) := by
  intro a1
  unfold Sparse.iter1
  agree [EfIter.new_agree]

theorem BinRmq.argMinTail_agree : ∀ a1 a2 a3 a4 a5 a6, Agree (@BinRmq.argMinTail dbg a1 a2 a3 a4 a5 a6) (@BinRmq.argMinTail rel a1 a2 a3 a4 a5 a6) := by
  intro a1 a2 a3 a4 a5 a6
  unfold BinRmq.argMinTail
  agree [subR_agree]

theorem BinRmq.argMin_agree : ∀ a1 a2 a3 a4 a5, Agree (@BinRmq.argMin dbg a1 a2 a3 a4 a5) (@BinRmq.argMin rel a1 a2 a3 a4 a5) := by
  intro a1 a2 a3 a4 a5
  unfold BinRmq.argMin
  agree [subR_agree, BinRmq.argMinTail_agree]

theorem BinRmq.step_agree : ∀ a1 a2 a3 a4 a5, Agree (@BinRmq.step dbg a1 a2 a3 a4 a5) (@BinRmq.step rel a1 a2 a3 a4 a5) := by
  intro a1 a2 a3 a4 a5
  unfold BinRmq.step
  agree [BinRmq.argMin_agree, subR_agree]

theorem BinRmq.inner_agree : ∀ a1 a2 a3 a4 a5, Agree (@BinRmq.inner dbg a1 a2 a3 a4 a5) (@BinRmq.inner rel a1 a2 a3 a4 a5) := by
  intro a1 a2 a3 a4 a5
  induction a4 generalizing a1 a2 a3 a5 <;> unfold BinRmq.inner <;> agree [BinRmq.step_agree]

theorem BinRmq.outer_agree : ∀ a1 a2 a3 a4, Agree (@BinRmq.outer dbg a1 a2 a3 a4) (@BinRmq.outer rel a1 a2 a3 a4) := by
  intro a1 a2 a3 a4
  induction a3 generalizing a1 a2 a4 <;> unfold BinRmq.outer <;> agree [BinRmq.inner_agree]

theorem BinRmq.fromVec_agree : ∀ a1, Agree (@BinRmq.fromVec dbg a1) (@BinRmq.fromVec rel a1) := by
  intro a1
  unfold BinRmq.fromVec
  agree [BinRmq.outer_agree]

theorem BinRmq.rangeMin_agree : ∀ a1 a2 a3, Agree (@BinRmq.rangeMin dbg a1 a2 a3) (@BinRmq.rangeMin rel a1 a2 a3) := by
  intro a1 a2 a3
  unfold BinRmq.rangeMin
  agree [subR_agree]

theorem startBound_agree : ∀ a1 a2, Agree (@startBound dbg a1 a2) (@startBound rel a1 a2) := by
  intro a1 a2
  unfold startBound
  agree [addU_agree, subR_agree]

theorem endBound_agree : ∀ a1 a2, Agree (@endBound dbg a1 a2) (@endBound rel a1 a2) := by
  intro a1 a2
  unfold endBound
  agree [subR_agree]

theorem BinRmq.rangeMinWithRange_agree : ∀ a1 a2 a3, Agree (@BinRmq.rangeMinWithRange dbg a1 a2 a3) (@BinRmq.rangeMinWithRange rel a1 a2 a3) := by
  intro a1 a2 a3
  unfold BinRmq.rangeMinWithRange
  agree [startBound_agree, endBound_agree, BinRmq.rangeMin_agree]

theorem SmallBV.rank0_agree : ∀ a1 a2, Agree (@SmallBV.rank0 dbg a1 a2) (@SmallBV.rank0 rel a1 a2) := by
  intro a1 a2
  unfold SmallBV.rank0
  agree [dassertR_agree]

theorem SmallBV.select0_agree : ∀ a1 a2, Agree (@SmallBV.select0 dbg a1 a2) (@SmallBV.select0 rel a1 a2) := by
  intro a1 a2
  unfold SmallBV.select0
  agree [selectInWord_agree]

theorem SmallBV.setBit_agree : ∀ a1 a2, Agree (@SmallBV.setBit dbg a1 a2) (@SmallBV.setBit rel a1 a2) := by
  intro a1 a2
  unfold SmallBV.setBit
  agree [dassertR_agree, wrapR_agree]

theorem FastRmq.preBits_agree : ∀ a1 a2 a3, Agree (@FastRmq.preBits dbg a1 a2 a3) (@FastRmq.preBits rel a1 a2 a3) := by
  intro a1 a2 a3
  unfold FastRmq.preBits
  agree [SmallBV.setBit_agree]

theorem FastRmq.preLoop_agree : ∀ a1 a2 a3, Agree (@FastRmq.preLoop dbg a1 a2 a3) (@FastRmq.preLoop rel a1 a2 a3) := by
  intro a1 a2 a3
  induction a2 generalizing a1 a3 <;> unfold FastRmq.preLoop <;> agree [FastRmq.preBits_agree]

theorem FastRmq.sufLoop_agree : ∀ a1 a2 a3, Agree (@FastRmq.sufLoop dbg a1 a2 a3) (@FastRmq.sufLoop rel a1 a2 a3) := by
  intro a1 a2 a3
  induction a2 generalizing a1 a3 <;> unfold FastRmq.sufLoop <;> agree [subR_agree, SmallBV.setBit_agree]

theorem FastRmq.mkBlock_agree : ∀ a1, Agree (@FastRmq.mkBlock dbg a1) (@FastRmq.mkBlock rel a1) := by
  intro a1
  unfold FastRmq.mkBlock
  agree [FastRmq.preLoop_agree, subR_agree, FastRmq.sufLoop_agree]

theorem FastRmq.mkBlocks_agree : ∀ a1 a2, Agree (@FastRmq.mkBlocks dbg a1 a2) (@FastRmq.mkBlocks rel a1 a2) := by
  intro a1 a2
  induction a2 generalizing a1 <;> unfold FastRmq.mkBlocks <;> agree [FastRmq.mkBlock_agree]

theorem FastRmq.fromVec_agree : ∀ a1, Agree (@FastRmq.fromVec dbg a1) (@FastRmq.fromVec rel a1) := by
  intro a1
  unfold FastRmq.fromVec
  agree [FastRmq.mkBlocks_agree, BinRmq.fromVec_agree]

theorem FastRmq.inBlockSuffix_agree : ∀ a1 a2 a3 a4, Agree (@FastRmq.inBlockSuffix dbg a1 a2 a3 a4) (@FastRmq.inBlockSuffix rel a1 a2 a3 a4) := by
  intro a1 a2 a3 a4
  unfold FastRmq.inBlockSuffix
  agree [SmallBV.rank0_agree, SmallBV.select0_agree, subR_agree]

theorem FastRmq.inBlock_agree : ∀ a1 a2 a3, Agree (@FastRmq.inBlock dbg a1 a2 a3) (@FastRmq.inBlock rel a1 a2 a3) := by
  intro a1 a2 a3
  unfold FastRmq.inBlock
  agree [SmallBV.rank0_agree, SmallBV.select0_agree, FastRmq.inBlockSuffix_agree]

theorem FastRmq.leftMin_agree : ∀ a1 a2, Agree (@FastRmq.leftMin dbg a1 a2) (@FastRmq.leftMin rel a1 a2) := by
  intro a1 a2
  unfold FastRmq.leftMin
  agree [SmallBV.rank0_agree, subR_agree, SmallBV.select0_agree]

theorem FastRmq.rightMin_agree : ∀ a1 a2, Agree (@FastRmq.rightMin dbg a1 a2) (@FastRmq.rightMin rel a1 a2) := by
  intro a1 a2
  unfold FastRmq.rightMin
  agree [SmallBV.rank0_agree, subR_agree, SmallBV.select0_agree]

theorem FastRmq.middleMin_agree : ∀ a1 a2 a3, Agree (@FastRmq.middleMin dbg a1 a2 a3) (@FastRmq.middleMin rel a1 a2 a3) := by
  intro a1 a2 a3
  unfold FastRmq.middleMin
  agree [BinRmq.rangeMin_agree]

theorem FastRmq.rangeMin_agree : ∀ a1 a2 a3, Agree (@FastRmq.rangeMin dbg a1 a2 a3) (@FastRmq.rangeMin rel a1 a2 a3) := by
  intro a1 a2 a3
  unfold FastRmq.rangeMin
  agree [FastRmq.inBlock_agree, FastRmq.leftMin_agree, FastRmq.rightMin_agree, FastRmq.middleMin_agree]

theorem FastRmq.rangeMinWithRange_agree : ∀ a1 a2 a3, Agree (@FastRmq.rangeMinWithRange dbg a1 a2 a3) (@FastRmq.rangeMinWithRange rel a1 a2 a3) := by
  intro a1 a2 a3
  unfold FastRmq.rangeMinWithRange
  agree [startBound_agree, endBound_agree, FastRmq.rangeMin_agree]

theorem WM.fillBits_agree : ∀ a0 a0' a1 a2 a3 a4, (∀ x0, Agree (a0 x0) (a0' x0)) → Agree (@WM.fillBits a0 a1 a2 a3 a4) (@WM.fillBits a0' a1 a2 a3 a4) := by
  intro a0 a0' a1 a2 a3 a4 ha0
  induction a1 generalizing a2 a3 a4 <;> unfold WM.fillBits <;> agree [ha0]

theorem WM.sortLevels_agree : ∀ a0 a1 a2 a2' a3 a4 a5 a6, (∀ x0 x1, Agree (a2 x0 x1) (a2' x0 x1)) → Agree (@WM.sortLevels a0 a1 a2 a3 a4 a5 a6) (@WM.sortLevels a0 a1 a2' a3 a4 a5 a6) := by
  intro a0 a1 a2 a2' a3 a4 a5 a6 ha2
  induction a3 generalizing a0 a1 a4 a5 a6 <;> unfold WM.sortLevels <;> agree [WM.fillBits_agree, ha2]

theorem WM.buildAll_agree : ∀ a1, Agree (@WM.buildAll dbg a1) (@WM.buildAll rel a1) := by
  intro a1
  induction a1 <;> unfold WM.buildAll <;> agree [RsVec.fromBitVec_agree]

theorem WM.permutationSorting_agree : ∀ a1 a2 a3 a3', (∀ x0 x1, Agree (a3 x0 x1) (a3' x0 x1)) → Agree (@WM.permutationSorting dbg a1 a2 a3) (@WM.permutationSorting rel a1 a2 a3') := by
  intro a1 a2 a3 a3' ha3
  unfold WM.permutationSorting
  agree [WM.sortLevels_agree, WM.buildAll_agree, ha3]

theorem WM.sliceLookup_agree : ∀ a1 a2 a3, Agree (@WM.sliceLookup dbg a1 a2 a3) (@WM.sliceLookup rel a1 a2 a3) := by
  intro a1 a2 a3
  unfold WM.sliceLookup
  agree [wrapR_agree]

theorem WM.fromBitVec_agree : ∀ a1 a2, Agree (@WM.fromBitVec dbg a1 a2) (@WM.fromBitVec rel a1 a2) := by
  intro a1 a2
  unfold WM.fromBitVec
  agree [WM.permutationSorting_agree]

theorem WM.fromSlice_agree : ∀ a1 a2, Agree (@WM.fromSlice dbg a1 a2) (@WM.fromSlice rel a1 a2) := by
  intro a1 a2
  unfold WM.fromSlice
  agree [WM.permutationSorting_agree, WM.sliceLookup_agree]

theorem WM.countLoop_agree : ∀ a1 a2 a2' a3 a3' a4 a5, (∀ x0 x1, Agree (a2 x0 x1) (a2' x0 x1)) → (∀ x0, Agree (a3 x0) (a3' x0)) → Agree (@WM.countLoop a1 a2 a3 a4 a5) (@WM.countLoop a1 a2' a3' a4 a5) := by
  intro a1 a2 a2' a3 a3' a4 a5 ha2 ha3
  induction a4 generalizing a5 <;> unfold WM.countLoop <;> agree [ha2, ha3]

theorem WM.placeLoop_agree : ∀ a0 a1 a2 a2' a3 a3' a4 a5, (∀ x0 x1, Agree (a2 x0 x1) (a2' x0 x1)) → (∀ x0, Agree (a3 x0) (a3' x0)) → Agree (@WM.placeLoop a0 a1 a2 a3 a4 a5) (@WM.placeLoop a0 a1 a2' a3' a4 a5) := by
  intro a0 a1 a2 a2' a3 a3' a4 a5 ha2 ha3
  induction a4 generalizing a0 a1 a5 <;> unfold WM.placeLoop <;> agree [ha2, ha3]

theorem WM.pcLevels_agree : ∀ a0 a1 a2 a2' a3 a3' a4 a5 a6 a7, (∀ x0 x1, Agree (a2 x0 x1) (a2' x0 x1)) → (∀ x0, Agree (a3 x0) (a3' x0)) → Agree (@WM.pcLevels a0 a1 a2 a3 a4 a5 a6 a7) (@WM.pcLevels a0 a1 a2' a3' a4 a5 a6 a7) := by
  intro a0 a1 a2 a2' a3 a3' a4 a5 a6 a7 ha2 ha3
  induction a4 generalizing a0 a1 a5 a6 a7 <;> unfold WM.pcLevels <;> agree [WM.placeLoop_agree, ha2, ha3]

theorem WM.prefixCounting_agree : ∀ a1 a2 a3 a3' a4 a4', (∀ x0 x1, Agree (a3 x0 x1) (a3' x0 x1)) → (∀ x0, Agree (a4 x0) (a4' x0)) → Agree (@WM.prefixCounting dbg a1 a2 a3 a4) (@WM.prefixCounting rel a1 a2 a3' a4') := by
  intro a1 a2 a3 a3' a4 a4' ha3 ha4
  unfold WM.prefixCounting
  agree [wrapR_agree, WM.countLoop_agree, WM.pcLevels_agree, WM.buildAll_agree, ha3, ha4]

theorem WM.fromBitVecPc_agree : ∀ a1 a2, Agree (@WM.fromBitVecPc dbg a1 a2) (@WM.fromBitVecPc rel a1 a2) := by
  intro a1 a2
  unfold WM.fromBitVecPc
  agree [WM.prefixCounting_agree, BV.getBitsUnchecked_agree]

theorem WM.fromSlicePc_agree : ∀ a1 a2, Agree (@WM.fromSlicePc dbg a1 a2) (@WM.fromSlicePc rel a1 a2) := by
  intro a1 a2
  unfold WM.fromSlicePc
  agree [WM.prefixCounting_agree, WM.sliceLookup_agree]

theorem WM.goZero_agree : ∀ a1 a2, Agree (@WM.goZero dbg a1 a2) (@WM.goZero rel a1 a2) := by
  intro a1 a2
  unfold WM.goZero
  agree [RsVec.rank_agree]

theorem WM.goOne_agree : ∀ a1 a2, Agree (@WM.goOne dbg a1 a2) (@WM.goOne rel a1 a2) := by
  intro a1 a2
  unfold WM.goOne
  agree [RsVec.rank_agree]

theorem WM.go_agree : ∀ a1 a2 a3, Agree (@WM.go dbg a1 a2 a3) (@WM.go rel a1 a2 a3) := by
  intro a1 a2 a3
  unfold WM.go
  agree [WM.goZero_agree, WM.goOne_agree]

theorem WM.reconstruct_agree : ∀ a1 a2 a2' a3 a4 a5, (∀ x0 x1, Agree (a2 x0 x1) (a2' x0 x1)) → Agree (@WM.reconstruct dbg a1 a2 a3 a4 a5) (@WM.reconstruct rel a1 a2' a3 a4 a5) := by
  intro a1 a2 a2' a3 a4 a5 ha2
  induction a3 generalizing a4 a5 <;> unfold WM.reconstruct <;> agree [WM.go_agree, ha2]

theorem WM.getValueUnchecked_agree : ∀ a1 a2, Agree (@WM.getValueUnchecked dbg a1 a2) (@WM.getValueUnchecked rel a1 a2) := by
  intro a1 a2
  unfold WM.getValueUnchecked
  agree [subR_agree, WM.reconstruct_agree]

theorem WM.getValue_agree : ∀ a1 a2, Agree (@WM.getValue dbg a1 a2) (@WM.getValue rel a1 a2) := by
  intro a1 a2
  unfold WM.getValue
  agree [WM.getValueUnchecked_agree]

theorem WM.getU64Unchecked_agree : ∀ a1 a2, Agree (@WM.getU64Unchecked dbg a1 a2) (@WM.getU64Unchecked rel a1 a2) := by
  intro a1 a2
  unfold WM.getU64Unchecked
  agree [WM.reconstruct_agree]

theorem WM.getU64_agree : ∀ a1 a2, Agree (@WM.getU64 dbg a1 a2) (@WM.getU64 rel a1 a2) := by
  intro a1 a2
  unfold WM.getU64
  agree [WM.getU64Unchecked_agree]

theorem WM.readBV_agree : ∀ a1 a2 a3, Agree (@WM.readBV dbg a1 a2 a3) (@WM.readBV rel a1 a2 a3) := by
  intro a1 a2 a3
  unfold WM.readBV
  agree [subR_agree]

theorem WM.readU64_agree : ∀ a1 a2 a3, Agree (@WM.readU64 dbg a1 a2 a3) (@WM.readU64 rel a1 a2 a3) := by
  intro a1 a2 a3
  unfold WM.readU64
  agree [subR_agree, wrapR_agree]

theorem WM.rangeLoop_agree : ∀ a1 a1' a2 a3 a4 a5, (∀ x0, Agree (a1 x0) (a1' x0)) → Agree (@WM.rangeLoop dbg a1 a2 a3 a4 a5) (@WM.rangeLoop rel a1' a2 a3 a4 a5) := by
  intro a1 a1' a2 a3 a4 a5 ha1
  induction a2 generalizing a3 a4 a5 <;> unfold WM.rangeLoop <;> agree [WM.go_agree, ha1]

theorem WM.rankGen_agree : ∀ a1 a2 a2' a3 a4, (∀ x0, Agree (a2 x0) (a2' x0)) → Agree (@WM.rankGen dbg a1 a2 a3 a4) (@WM.rankGen rel a1 a2' a3 a4) := by
  intro a1 a2 a2' a3 a4 ha2
  unfold WM.rankGen
  agree [WM.rangeLoop_agree, subR_agree, ha2]

theorem WM.rankRangeUnchecked_agree : ∀ a1 a2 a3 a4, Agree (@WM.rankRangeUnchecked dbg a1 a2 a3 a4) (@WM.rankRangeUnchecked rel a1 a2 a3 a4) := by
  intro a1 a2 a3 a4
  unfold WM.rankRangeUnchecked
  agree [WM.rankGen_agree, WM.readBV_agree]

theorem WM.rankRangeU64Unchecked_agree : ∀ a1 a2 a3 a4, Agree (@WM.rankRangeU64Unchecked dbg a1 a2 a3 a4) (@WM.rankRangeU64Unchecked rel a1 a2 a3 a4) := by
  intro a1 a2 a3 a4
  unfold WM.rankRangeU64Unchecked
  agree [WM.rankGen_agree, WM.readU64_agree]

theorem WM.rankRange_agree : ∀ a1 a2 a3 a4, Agree (@WM.rankRange dbg a1 a2 a3 a4) (@WM.rankRange rel a1 a2 a3 a4) := by
  intro a1 a2 a3 a4
  unfold WM.rankRange
  agree [WM.rankRangeUnchecked_agree]

theorem WM.rankRangeU64_agree : ∀ a1 a2 a3 a4, Agree (@WM.rankRangeU64 dbg a1 a2 a3 a4) (@WM.rankRangeU64 rel a1 a2 a3 a4) := by
  intro a1 a2 a3 a4
  unfold WM.rankRangeU64
  agree [WM.rankRangeU64Unchecked_agree]

theorem WM.rankOffsetUnchecked_agree : ∀ a1 a2 a3 a4, Agree (@WM.rankOffsetUnchecked dbg a1 a2 a3 a4) (@WM.rankOffsetUnchecked rel a1 a2 a3 a4) := by
  intro a1 a2 a3 a4
  unfold WM.rankOffsetUnchecked
  agree [WM.rankRangeUnchecked_agree]

theorem WM.rankOffsetU64Unchecked_agree : ∀ a1 a2 a3 a4, Agree (@WM.rankOffsetU64Unchecked dbg a1 a2 a3 a4) (@WM.rankOffsetU64Unchecked rel a1 a2 a3 a4) := by
  intro a1 a2 a3 a4
  unfold WM.rankOffsetU64Unchecked
  agree [WM.rankRangeU64Unchecked_agree]

theorem WM.rankUnchecked_agree : ∀ a1 a2 a3, Agree (@WM.rankUnchecked dbg a1 a2 a3) (@WM.rankUnchecked rel a1 a2 a3) := by
  intro a1 a2 a3
  unfold WM.rankUnchecked
  agree [WM.rankRangeUnchecked_agree]

theorem WM.rankU64Unchecked_agree : ∀ a1 a2 a3, Agree (@WM.rankU64Unchecked dbg a1 a2 a3) (@WM.rankU64Unchecked rel a1 a2 a3) := by
  intro a1 a2 a3
  unfold WM.rankU64Unchecked
  agree [WM.rankRangeU64Unchecked_agree]

theorem WM.rankOffset_agree : ∀ a1 a2 a3 a4, Agree (@WM.rankOffset dbg a1 a2 a3 a4) (@WM.rankOffset rel a1 a2 a3 a4) := by
  intro a1 a2 a3 a4
  unfold WM.rankOffset
  agree [WM.rankOffsetUnchecked_agree]

theorem WM.rankOffsetU64_agree : ∀ a1 a2 a3 a4, Agree (@WM.rankOffsetU64 dbg a1 a2 a3 a4) (@WM.rankOffsetU64 rel a1 a2 a3 a4) := by
  intro a1 a2 a3 a4
  unfold WM.rankOffsetU64
  agree [WM.rankOffsetU64Unchecked_agree]

theorem WM.rank_agree : ∀ a1 a2 a3, Agree (@WM.rank dbg a1 a2 a3) (@WM.rank rel a1 a2 a3) := by
  intro a1 a2 a3
  unfold WM.rank
  agree [WM.rankUnchecked_agree]

theorem WM.rankU64_agree : ∀ a1 a2 a3, Agree (@WM.rankU64 dbg a1 a2 a3) (@WM.rankU64 rel a1 a2 a3) := by
  intro a1 a2 a3
  unfold WM.rankU64
  agree [WM.rankU64Unchecked_agree]

theorem WM.selectDown_agree : ∀ a1 a1' a2 a3 a4, (∀ x0, Agree (a1 x0) (a1' x0)) → Agree (@WM.selectDown dbg a1 a2 a3 a4) (@WM.selectDown rel a1' a2 a3 a4) := by
  intro a1 a1' a2 a3 a4 ha1
  induction a2 generalizing a3 a4 <;> unfold WM.selectDown <;> agree [WM.go_agree, ha1]

theorem WM.goUp_agree : ∀ a1 a2 a3 a4, Agree (@WM.goUp dbg a1 a2 a3 a4) (@WM.goUp rel a1 a2 a3 a4) := by
  intro a1 a2 a3 a4
  unfold WM.goUp
  agree [RsVec.select_agree, subR_agree]

theorem WM.selectUp_agree : ∀ a1 a1' a2 a3 a4 a5, (∀ x0, Agree (a1 x0) (a1' x0)) → Agree (@WM.selectUp dbg a1 a2 a3 a4 a5) (@WM.selectUp rel a1' a2 a3 a4 a5) := by
  intro a1 a1' a2 a3 a4 a5 ha1
  induction a2 generalizing a3 a4 <;> unfold WM.selectUp <;> agree [WM.goUp_agree, ha1]

theorem WM.selectGen_agree : ∀ a1 a2 a2' a3 a4 a5, (∀ x0, Agree (a2 x0) (a2' x0)) → Agree (@WM.selectGen dbg a1 a2 a3 a4 a5) (@WM.selectGen rel a1 a2' a3 a4 a5) := by
  intro a1 a2 a2' a3 a4 a5 ha2
  unfold WM.selectGen
  agree [WM.selectDown_agree, addU_agree, WM.selectUp_agree, ha2]

theorem WM.selectOffsetUnchecked_agree : ∀ a1 a2 a3 a4 a5, Agree (@WM.selectOffsetUnchecked dbg a1 a2 a3 a4 a5) (@WM.selectOffsetUnchecked rel a1 a2 a3 a4 a5) := by
  intro a1 a2 a3 a4 a5
  unfold WM.selectOffsetUnchecked
  agree [WM.selectGen_agree, WM.readBV_agree]

theorem WM.selectOffsetU64Unchecked_agree : ∀ a1 a2 a3 a4 a5, Agree (@WM.selectOffsetU64Unchecked dbg a1 a2 a3 a4 a5) (@WM.selectOffsetU64Unchecked rel a1 a2 a3 a4 a5) := by
  intro a1 a2 a3 a4 a5
  unfold WM.selectOffsetU64Unchecked
  agree [WM.selectGen_agree, WM.readU64_agree]

theorem WM.selectOffset_agree : ∀ a1 a2 a3 a4 a5, Agree (@WM.selectOffset dbg a1 a2 a3 a4 a5) (@WM.selectOffset rel a1 a2 a3 a4 a5) := by
  intro a1 a2 a3 a4 a5
  unfold WM.selectOffset
  agree [WM.selectOffsetUnchecked_agree]

theorem WM.selectOffsetU64_agree : ∀ a1 a2 a3 a4 a5, Agree (@WM.selectOffsetU64 dbg a1 a2 a3 a4 a5) (@WM.selectOffsetU64 rel a1 a2 a3 a4 a5) := by
  intro a1 a2 a3 a4 a5
  unfold WM.selectOffsetU64
  agree [WM.selectOffsetU64Unchecked_agree]

theorem WM.selectUnchecked_agree : ∀ a1 a2 a3 a4, Agree (@WM.selectUnchecked dbg a1 a2 a3 a4) (@WM.selectUnchecked rel a1 a2 a3 a4) := by
  intro a1 a2 a3 a4
  unfold WM.selectUnchecked
  agree [WM.selectOffsetUnchecked_agree]

theorem WM.selectU64Unchecked_agree : ∀ a1 a2 a3 a4, Agree (@WM.selectU64Unchecked dbg a1 a2 a3 a4) (@WM.selectU64Unchecked rel a1 a2 a3 a4) := by
  intro a1 a2 a3 a4
  unfold WM.selectU64Unchecked
  agree [WM.selectOffsetU64Unchecked_agree]

theorem WM.select_agree : ∀ a1 a2 a3 a4, Agree (@WM.select dbg a1 a2 a3 a4) (@WM.select rel a1 a2 a3 a4) := by
  intro a1 a2 a3 a4
  unfold WM.select
  agree [WM.selectUnchecked_agree]

theorem WM.selectU64_agree : ∀ a1 a2 a3 a4, Agree (@WM.selectU64 dbg a1 a2 a3 a4) (@WM.selectU64 rel a1 a2 a3 a4) := by
  intro a1 a2 a3 a4
  unfold WM.selectU64
  agree [WM.selectU64Unchecked_agree]

theorem WM.quantLoop_agree : ∀ a1 a2 a2' a3 a3' a4 a5 a6 a7 a8 a9, (∀ x0 x1, Agree (a2 x0 x1) (a2' x0 x1)) → (∀ x0 x1, Agree (a3 x0 x1) (a3' x0 x1)) → Agree (@WM.quantLoop dbg a1 a2 a3 a4 a5 a6 a7 a8 a9) (@WM.quantLoop rel a1 a2' a3' a4 a5 a6 a7 a8 a9) := by
  intro a1 a2 a2' a3 a3' a4 a5 a6 a7 a8 a9 ha2 ha3
  induction a4 generalizing a5 a6 a7 a8 a9 <;> unfold WM.quantLoop <;> agree [RsVec.rank_agree, subR_agree, ha2, ha3]

theorem WM.writeBV_agree : ∀ a1 a2 a3 a4, Agree (@WM.writeBV dbg a1 a2 a3 a4) (@WM.writeBV rel a1 a2 a3 a4) := by
  intro a1 a2 a3 a4
  unfold WM.writeBV
  agree [subR_agree]

theorem WM.partialQuantile_agree : ∀ a1 a2 a3 a4 a5 a6, Agree (@WM.partialQuantile dbg a1 a2 a3 a4 a5 a6) (@WM.partialQuantile rel a1 a2 a3 a4 a5 a6) := by
  intro a1 a2 a3 a4 a5 a6
  unfold WM.partialQuantile
  agree [dassertR_agree, WM.quantLoop_agree, WM.writeBV_agree]

theorem WM.partialQuantileU64_agree : ∀ a1 a2 a3 a4 a5 a6, Agree (@WM.partialQuantileU64 dbg a1 a2 a3 a4 a5 a6) (@WM.partialQuantileU64 rel a1 a2 a3 a4 a5 a6) := by
  intro a1 a2 a3 a4 a5 a6
  unfold WM.partialQuantileU64
  agree [dassertR_agree, WM.quantLoop_agree]

theorem WM.quantileUnchecked_agree : ∀ a1 a2 a3 a4, Agree (@WM.quantileUnchecked dbg a1 a2 a3 a4) (@WM.quantileUnchecked rel a1 a2 a3 a4) := by
  intro a1 a2 a3 a4
  unfold WM.quantileUnchecked
  agree [WM.partialQuantile_agree]

theorem WM.quantileU64Unchecked_agree : ∀ a1 a2 a3 a4, Agree (@WM.quantileU64Unchecked dbg a1 a2 a3 a4) (@WM.quantileU64Unchecked rel a1 a2 a3 a4) := by
  intro a1 a2 a3 a4
  unfold WM.quantileU64Unchecked
  agree [WM.partialQuantileU64_agree]

theorem WM.quantile_agree : ∀ a1 a2 a3 a4, Agree (@WM.quantile dbg a1 a2 a3 a4) (@WM.quantile rel a1 a2 a3 a4) := by
  intro a1 a2 a3 a4
  unfold WM.quantile
  agree [subR_agree, WM.quantileUnchecked_agree]

theorem WM.quantileU64_agree : ∀ a1 a2 a3 a4, Agree (@WM.quantileU64 dbg a1 a2 a3 a4) (@WM.quantileU64 rel a1 a2 a3 a4) := by
  intro a1 a2 a3 a4
  unfold WM.quantileU64
  agree [subR_agree, WM.quantileU64Unchecked_agree]

theorem WM.getSortedUnchecked_agree : ∀ a1 a2, Agree (@WM.getSortedUnchecked dbg a1 a2) (@WM.getSortedUnchecked rel a1 a2) := by
  intro a1 a2
  unfold WM.getSortedUnchecked
  agree [WM.quantileUnchecked_agree]

theorem WM.getSorted_agree : ∀ a1 a2, Agree (@WM.getSorted dbg a1 a2) (@WM.getSorted rel a1 a2) := by
  intro a1 a2
  unfold WM.getSorted
  agree [WM.getSortedUnchecked_agree]

theorem WM.getSortedU64Unchecked_agree : ∀ a1 a2, Agree (@WM.getSortedU64Unchecked dbg a1 a2) (@WM.getSortedU64Unchecked rel a1 a2) := by
  intro a1 a2
  unfold WM.getSortedU64Unchecked
  agree [WM.quantileU64Unchecked_agree]

theorem WM.getSortedU64_agree : ∀ a1 a2, Agree (@WM.getSortedU64 dbg a1 a2) (@WM.getSortedU64 rel a1 a2) := by
  intro a1 a2
  unfold WM.getSortedU64
  agree [WM.getSortedU64Unchecked_agree]

theorem WM.rangeMinUnchecked_agree : ∀ a1 a2 a3, Agree (@WM.rangeMinUnchecked dbg a1 a2 a3) (@WM.rangeMinUnchecked rel a1 a2 a3) := by
  intro a1 a2 a3
  unfold WM.rangeMinUnchecked
  agree [WM.quantileUnchecked_agree]

theorem WM.rangeMinU64Unchecked_agree : ∀ a1 a2 a3, Agree (@WM.rangeMinU64Unchecked dbg a1 a2 a3) (@WM.rangeMinU64Unchecked rel a1 a2 a3) := by
  intro a1 a2 a3
  unfold WM.rangeMinU64Unchecked
  agree [WM.quantileU64Unchecked_agree]

theorem WM.maxRank_agree : ∀ a1 a2, Agree (@WM.maxRank dbg a1 a2) (@WM.maxRank rel a1 a2) := by
  intro a1 a2
  unfold WM.maxRank
  agree [subR_agree]

theorem WM.rangeMaxUnchecked_agree : ∀ a1 a2 a3, Agree (@WM.rangeMaxUnchecked dbg a1 a2 a3) (@WM.rangeMaxUnchecked rel a1 a2 a3) := by
  intro a1 a2 a3
  unfold WM.rangeMaxUnchecked
  agree [WM.maxRank_agree, WM.quantileUnchecked_agree]

theorem WM.rangeMaxU64Unchecked_agree : ∀ a1 a2 a3, Agree (@WM.rangeMaxU64Unchecked dbg a1 a2 a3) (@WM.rangeMaxU64Unchecked rel a1 a2 a3) := by
  intro a1 a2 a3
  unfold WM.rangeMaxU64Unchecked
  agree [WM.maxRank_agree, WM.quantileU64Unchecked_agree]

theorem WM.medianRank_agree : ∀ a1 a2, Agree (@WM.medianRank dbg a1 a2) (@WM.medianRank rel a1 a2) := by
  intro a1 a2
  unfold WM.medianRank
  agree [subR_agree]

theorem WM.rangeMedianUnchecked_agree : ∀ a1 a2 a3, Agree (@WM.rangeMedianUnchecked dbg a1 a2 a3) (@WM.rangeMedianUnchecked rel a1 a2 a3) := by
  intro a1 a2 a3
  unfold WM.rangeMedianUnchecked
  agree [WM.medianRank_agree, WM.quantileUnchecked_agree]

theorem WM.rangeMedianU64Unchecked_agree : ∀ a1 a2 a3, Agree (@WM.rangeMedianU64Unchecked dbg a1 a2 a3) (@WM.rangeMedianU64Unchecked rel a1 a2 a3) := by
  intro a1 a2 a3
  unfold WM.rangeMedianU64Unchecked
  agree [WM.medianRank_agree, WM.quantileU64Unchecked_agree]

theorem WM.rangeMin_agree : ∀ a1 a2 a3, Agree (@WM.rangeMin dbg a1 a2 a3) (@WM.rangeMin rel a1 a2 a3) := by
  intro a1 a2 a3
  unfold WM.rangeMin
  agree [WM.quantile_agree]

theorem WM.rangeMinU64_agree : ∀ a1 a2 a3, Agree (@WM.rangeMinU64 dbg a1 a2 a3) (@WM.rangeMinU64 rel a1 a2 a3) := by
  intro a1 a2 a3
  unfold WM.rangeMinU64
  agree [WM.quantileU64_agree]

theorem WM.rangeMax_agree : ∀ a1 a2 a3, Agree (@WM.rangeMax dbg a1 a2 a3) (@WM.rangeMax rel a1 a2 a3) := by
  intro a1 a2 a3
  unfold WM.rangeMax
  agree [WM.quantile_agree]

theorem WM.rangeMaxU64_agree : ∀ a1 a2 a3, Agree (@WM.rangeMaxU64 dbg a1 a2 a3) (@WM.rangeMaxU64 rel a1 a2 a3) := by
  intro a1 a2 a3
  unfold WM.rangeMaxU64
  agree [WM.quantileU64_agree]

theorem WM.rangeMedian_agree : ∀ a1 a2 a3, Agree (@WM.rangeMedian dbg a1 a2 a3) (@WM.rangeMedian rel a1 a2 a3) := by
  intro a1 a2 a3
  unfold WM.rangeMedian
  agree [WM.quantile_agree]

theorem WM.rangeMedianU64_agree : ∀ a1 a2 a3, Agree (@WM.rangeMedianU64 dbg a1 a2 a3) (@WM.rangeMedianU64 rel a1 a2 a3) := by
  intro a1 a2 a3
  unfold WM.rangeMedianU64
  agree [WM.quantileU64_agree]

theorem WM.smaller_agree : ∀ a1 a2 a2' a3, (AgreeS a2 a2') → Agree (@WM.smaller dbg a1 a2 a3) (@WM.smaller rel a1 a2' a3) := by
  intro a1 a2 a2' a3 ha2
  unfold WM.smaller
  agree [subR_agree, ha2.read, ha2.write, ha2.quant]

theorem WM.larger_agree : ∀ a0 a1 a1' a2, (AgreeS a1 a1') → Agree (@WM.larger a0 a1 a2) (@WM.larger a0 a1' a2) := by
  intro a0 a1 a1' a2 ha1
  unfold WM.larger
  agree [ha1.read, ha1.write, ha1.quant]

theorem WM.predLoop_agree : ∀ a1 a2 a2' a3 a4 a5 a6 a7 a8, (AgreeS a2 a2') → Agree (@WM.predLoop dbg a1 a2 a3 a4 a5 a6 a7 a8) (@WM.predLoop rel a1 a2' a3 a4 a5 a6 a7 a8) := by
  intro a1 a2 a2' a3 a4 a5 a6 a7 a8 ha2
  induction a3 generalizing a4 a5 a6 a7 a8 <;> unfold WM.predLoop <;> agree [RsVec.rank_agree, subR_agree, WM.smaller_agree, ha2.read, ha2.write, ha2.quant]

theorem WM.succLoop_agree : ∀ a1 a2 a2' a3 a4 a5 a6 a7 a8, (AgreeS a2 a2') → Agree (@WM.succLoop dbg a1 a2 a3 a4 a5 a6 a7 a8) (@WM.succLoop rel a1 a2' a3 a4 a5 a6 a7 a8) := by
  intro a1 a2 a2' a3 a4 a5 a6 a7 a8 ha2
  induction a3 generalizing a4 a5 a6 a7 a8 <;> unfold WM.succLoop <;> agree [RsVec.rank_agree, subR_agree, WM.larger_agree, ha2.read, ha2.write, ha2.quant]

theorem WM.searchBV_agree : ∀ a1 a2, AgreeS (@WM.searchBV dbg a1 a2) (@WM.searchBV rel a1 a2) :=
  fun _ _ => ⟨WM.readBV_agree _ _, WM.writeBV_agree _, WM.partialQuantile_agree _⟩

theorem WM.searchU64_agree : ∀ a1 a2, AgreeS (@WM.searchU64 dbg a1 a2) (@WM.searchU64 rel a1 a2) :=
  fun _ _ => ⟨WM.readU64_agree _ _, fun _ _ _ => Agree.rfl' _, WM.partialQuantileU64_agree _⟩

theorem WM.predecessor_agree : ∀ a1 a2 a3 a4, Agree (@WM.predecessor dbg a1 a2 a3 a4) (@WM.predecessor rel a1 a2 a3 a4) := by
  intro a1 a2 a3 a4
  unfold WM.predecessor
  agree [WM.predLoop_agree, WM.searchBV_agree]

theorem WM.predecessorU64_agree : ∀ a1 a2 a3 a4, Agree (@WM.predecessorU64 dbg a1 a2 a3 a4) (@WM.predecessorU64 rel a1 a2 a3 a4) := by
  intro a1 a2 a3 a4
  unfold WM.predecessorU64
  agree [WM.predLoop_agree, WM.searchU64_agree]

theorem WM.successor_agree : ∀ a1 a2 a3 a4, Agree (@WM.successor dbg a1 a2 a3 a4) (@WM.successor rel a1 a2 a3 a4) := by
  intro a1 a2 a3 a4
  unfold WM.successor
  agree [WM.succLoop_agree, WM.searchBV_agree]

theorem WM.successorU64_agree : ∀ a1 a2 a3 a4, Agree (@WM.successorU64 dbg a1 a2 a3 a4) (@WM.successorU64 rel a1 a2 a3 a4) := by
  intro a1 a2 a3 a4
  unfold WM.successorU64
  agree [WM.succLoop_agree, WM.searchU64_agree]

theorem WM.valueOps_agree : ∀ a1, AgreeV (@WM.valueOps dbg a1) (@WM.valueOps rel a1) :=
  fun _ => ⟨rfl, WM.getValue_agree _, WM.getValueUnchecked_agree _⟩

theorem WM.numOps_agree : ∀ a1, AgreeV (@WM.numOps dbg a1) (@WM.numOps rel a1) :=
  fun _ => ⟨rfl, WM.getU64_agree _, WM.getU64Unchecked_agree _⟩

theorem WM.sortedOps_agree : ∀ a1, AgreeV (@WM.sortedOps dbg a1) (@WM.sortedOps rel a1) :=
  fun _ => ⟨rfl, WM.getSorted_agree _, WM.getSortedUnchecked_agree _⟩

theorem WM.sortedNumOps_agree : ∀ a1, AgreeV (@WM.sortedNumOps dbg a1) (@WM.sortedNumOps rel a1) :=
  fun _ => ⟨rfl, WM.getSortedU64_agree _, WM.getSortedU64Unchecked_agree _⟩

theorem WM.iterSorted_agree : ∀ a1, @WM.iterSorted dbg a1 = @WM.iterSorted rel a1 := fun _ => rfl

theorem WM.iterU64_agree : ∀ a1, @WM.iterU64 dbg a1 = @WM.iterU64 rel a1 := fun _ => rfl

theorem WM.iterSortedU64_agree : ∀ a1, @WM.iterSortedU64 dbg a1 = @WM.iterSortedU64 rel a1 := fun _ => rfl

theorem addI_agree : ∀ a1 a2, Agree (@addI dbg a1 a2) (@addI rel a1 a2) := by
  intro a1 a2
  unfold addI
  agree [wrapR_agree]

theorem subI_agree : ∀ a1 a2, Agree (@subI dbg a1 a2) (@subI rel a1 a2) := by
  intro a1 a2
  unfold subI
  agree [wrapR_agree]

theorem MMT.leafFlush_agree : ∀ a1 a2 a3 a4, Agree (@MMT.leafFlush dbg a1 a2 a3 a4) (@MMT.leafFlush rel a1 a2 a3 a4) := by
  intro a1 a2 a3 a4
  unfold MMT.leafFlush
  agree [subR_agree]

theorem MMT.leafStep_agree : ∀ a1 a2 a3 a4 a5, Agree (@MMT.leafStep dbg a1 a2 a3 a4 a5) (@MMT.leafStep rel a1 a2 a3 a4 a5) := by
  intro a1 a2 a3 a4 a5
  unfold MMT.leafStep
  agree [MMT.leafFlush_agree, addI_agree]

theorem MMT.leafLoop_agree : ∀ a1 a2 a3 a4 a5, Agree (@MMT.leafLoop dbg a1 a2 a3 a4 a5) (@MMT.leafLoop rel a1 a2 a3 a4 a5) := by
  intro a1 a2 a3 a4 a5
  induction a4 generalizing a1 a2 a3 a5 <;> unfold MMT.leafLoop <;> agree [MMT.leafStep_agree]

theorem MMT.combine_agree : ∀ a1 a2, Agree (@MMT.combine dbg a1 a2) (@MMT.combine rel a1 a2) := by
  intro a1 a2
  unfold MMT.combine
  agree [addI_agree]

theorem MMT.levelStep_agree : ∀ a1 a2 a3, Agree (@MMT.levelStep dbg a1 a2 a3) (@MMT.levelStep rel a1 a2 a3) := by
  intro a1 a2 a3
  unfold MMT.levelStep
  agree [MMT.combine_agree]

theorem MMT.levelLoop_agree : ∀ a1 a2 a3, Agree (@MMT.levelLoop dbg a1 a2 a3) (@MMT.levelLoop rel a1 a2 a3) := by
  intro a1 a2 a3
  induction a2 generalizing a1 a3 <;> unfold MMT.levelLoop <;> agree [MMT.levelStep_agree]

theorem MMT.levels_agree : ∀ a1 a2 a3 a4, Agree (@MMT.levels dbg a1 a2 a3 a4) (@MMT.levels rel a1 a2 a3 a4) := by
  intro a1 a2 a3 a4
  induction a1 generalizing a2 a3 a4 <;> unfold MMT.levels <;> agree [MMT.levelLoop_agree, subR_agree]

theorem MMT.excessTree_agree : ∀ a1 a2 a3, Agree (@MMT.excessTree dbg a1 a2 a3) (@MMT.excessTree rel a1 a2 a3) := by
  intro a1 a2 a3
  unfold MMT.excessTree
  agree [MMT.leafLoop_agree, subR_agree, MMT.levels_agree]

theorem MMT.firstLeaf_agree : ∀ a1, Agree (@MMT.firstLeaf dbg a1) (@MMT.firstLeaf rel a1) := by
  intro a1
  unfold MMT.firstLeaf
  agree [dassertR_agree, subR_agree]

theorem MMT.isLeaf_agree : ∀ a1 a2, Agree (@MMT.isLeaf dbg a1 a2) (@MMT.isLeaf rel a1 a2) := by
  intro a1 a2
  unfold MMT.isLeaf
  agree [MMT.firstLeaf_agree]

theorem MMT.inRangeBwd_agree : ∀ a1 a2 a3, Agree (@MMT.inRangeBwd dbg a1 a2 a3) (@MMT.inRangeBwd rel a1 a2 a3) := by
  intro a1 a2 a3
  unfold MMT.inRangeBwd
  agree [addI_agree]

theorem MMT.fwdDown_agree : ∀ a1 a2 a3 a4, Agree (@MMT.fwdDown dbg a1 a2 a3 a4) (@MMT.fwdDown rel a1 a2 a3 a4) := by
  intro a1 a2 a3 a4
  induction a2 generalizing a1 a3 a4 <;> unfold MMT.fwdDown <;> agree [dassertR_agree, MMT.isLeaf_agree, subI_agree]

theorem MMT.fwdUp_agree : ∀ a1 a2 a3 a4 a5, Agree (@MMT.fwdUp dbg a1 a2 a3 a4 a5) (@MMT.fwdUp rel a1 a2 a3 a4 a5) := by
  intro a1 a2 a3 a4 a5
  induction a3 generalizing a1 a2 a4 a5 <;> unfold MMT.fwdUp <;> agree [dassertR_agree, MMT.fwdDown_agree, subI_agree]

theorem MMT.bwdDown_agree : ∀ a1 a2 a3 a4, Agree (@MMT.bwdDown dbg a1 a2 a3 a4) (@MMT.bwdDown rel a1 a2 a3 a4) := by
  intro a1 a2 a3 a4
  induction a2 generalizing a1 a3 a4 <;> unfold MMT.bwdDown <;> agree [dassertR_agree, MMT.isLeaf_agree, MMT.inRangeBwd_agree, addI_agree]

theorem MMT.bwdUp_agree : ∀ a1 a2 a3 a4 a5, Agree (@MMT.bwdUp dbg a1 a2 a3 a4 a5) (@MMT.bwdUp rel a1 a2 a3 a4 a5) := by
  intro a1 a2 a3 a4 a5
  induction a3 generalizing a1 a2 a4 a5 <;> unfold MMT.bwdUp <;> agree [dassertR_agree, MMT.inRangeBwd_agree, MMT.bwdDown_agree, addI_agree]

theorem MMT.toBlock_agree : ∀ a1 a2, Agree (@MMT.toBlock dbg a1 a2) (@MMT.toBlock rel a1 a2) := by
  intro a1 a2
  unfold MMT.toBlock
  agree [subR_agree]

theorem MMT.fwdSearch_agree : ∀ a1 a2 a3 a4, Agree (@MMT.fwdSearch dbg a1 a2 a3 a4) (@MMT.fwdSearch rel a1 a2 a3 a4) := by
  intro a1 a2 a3 a4
  unfold MMT.fwdSearch
  agree [MMT.firstLeaf_agree, MMT.fwdUp_agree, MMT.toBlock_agree]

theorem MMT.bwdSearch_agree : ∀ a1 a2 a3 a4, Agree (@MMT.bwdSearch dbg a1 a2 a3 a4) (@MMT.bwdSearch rel a1 a2 a3 a4) := by
  intro a1 a2 a3 a4
  unfold MMT.bwdSearch
  agree [MMT.firstLeaf_agree, MMT.bwdUp_agree, MMT.toBlock_agree]

theorem Lookup.answer8_agree : ∀ a1 a2, Agree (@Lookup.answer8 dbg a1 a2) (@Lookup.answer8 rel a1 a2) := by
  intro a1 a2
  unfold Lookup.answer8
  agree [dassertR_agree]

theorem Lookup.processFwd8_agree : ∀ a1 a2, Agree (@Lookup.processFwd8 dbg a1 a2) (@Lookup.processFwd8 rel a1 a2) := by
  intro a1 a2
  unfold Lookup.processFwd8
  agree [Lookup.answer8_agree, subI_agree]

theorem Lookup.processBwd8_agree : ∀ a1 a2, Agree (@Lookup.processBwd8 dbg a1 a2) (@Lookup.processBwd8 rel a1 a2) := by
  intro a1 a2
  unfold Lookup.processBwd8
  agree [addI_agree, Lookup.answer8_agree]

theorem Lookup.scanFwd16_agree : ∀ a1 a2 a3 a4, Agree (@Lookup.scanFwd16 dbg a1 a2 a3 a4) (@Lookup.scanFwd16 rel a1 a2 a3 a4) := by
  intro a1 a2 a3 a4
  induction a2 generalizing a1 a3 a4 <;> unfold Lookup.scanFwd16 <;> agree [subI_agree]

theorem Lookup.scanBwd16_agree : ∀ a1 a2 a3, Agree (@Lookup.scanBwd16 dbg a1 a2 a3) (@Lookup.scanBwd16 rel a1 a2 a3) := by
  intro a1 a2 a3
  induction a2 generalizing a1 a3 <;> unfold Lookup.scanBwd16 <;> agree [addI_agree]

theorem Lookup.processFwd16_agree : ∀ a1 a2, Agree (@Lookup.processFwd16 dbg a1 a2) (@Lookup.processFwd16 rel a1 a2) := by
  intro a1 a2
  unfold Lookup.processFwd16
  agree [Lookup.scanFwd16_agree, subI_agree]

theorem Lookup.processBwd16_agree : ∀ a1 a2, Agree (@Lookup.processBwd16 dbg a1 a2) (@Lookup.processBwd16 rel a1 a2) := by
  intro a1 a2
  unfold Lookup.processBwd16
  agree [addI_agree, Lookup.scanBwd16_agree]

theorem Lookup.processFwd_agree : ∀ a1 a2 a3, Agree (@Lookup.processFwd dbg a1 a2 a3) (@Lookup.processFwd rel a1 a2 a3) := by
  intro a1 a2 a3
  unfold Lookup.processFwd
  agree [Lookup.processFwd8_agree, Lookup.processFwd16_agree]

theorem Lookup.processBwd_agree : ∀ a1 a2 a3, Agree (@Lookup.processBwd dbg a1 a2 a3) (@Lookup.processBwd rel a1 a2 a3) := by
  intro a1 a2 a3
  unfold Lookup.processBwd
  agree [Lookup.processBwd8_agree, Lookup.processBwd16_agree]

theorem Found.orElse_agree : ∀ a0 a1 a1', (∀ x0, Agree (a1 x0) (a1' x0)) → Agree (@Found.orElse a0 a1) (@Found.orElse a0 a1') := by
  intro a0 a1 a1' ha1
  unfold Found.orElse
  agree [ha1]

theorem BpTree.fromBitVector_agree : ∀ a1 a2 a3, Agree (@BpTree.fromBitVector dbg a1 a2 a3) (@BpTree.fromBitVector rel a1 a2 a3) := by
  intro a1 a2 a3
  unfold BpTree.fromBitVector
  agree [MMT.excessTree_agree, RsVec.fromBitVec_agree]

theorem BpTree.scanFwd_agree : ∀ a1 a2 a3 a4, Agree (@BpTree.scanFwd dbg a1 a2 a3 a4) (@BpTree.scanFwd rel a1 a2 a3 a4) := by
  intro a1 a2 a3 a4
  induction a2 generalizing a1 a3 a4 <;> unfold BpTree.scanFwd <;> agree [subI_agree]

theorem BpTree.block_agree : ∀ a1 a2 a3, Agree (@BpTree.block dbg a1 a2 a3) (@BpTree.block rel a1 a2 a3) := by
  intro a1 a2 a3
  unfold BpTree.block
  agree [RsVec.getBitsUnchecked_agree]

theorem BpTree.tabFwd_agree : ∀ a1 a2 a3 a4 a5, Agree (@BpTree.tabFwd dbg a1 a2 a3 a4 a5) (@BpTree.tabFwd rel a1 a2 a3 a4 a5) := by
  intro a1 a2 a3 a4 a5
  induction a3 generalizing a1 a2 a4 a5 <;> unfold BpTree.tabFwd <;> agree [BpTree.block_agree, Lookup.processFwd_agree, Found.orElse_agree]

theorem BpTree.fwdBlock_agree : ∀ a1 a2 a3 a4 a5 a6, Agree (@BpTree.fwdBlock dbg a1 a2 a3 a4 a5 a6) (@BpTree.fwdBlock rel a1 a2 a3 a4 a5 a6) := by
  intro a1 a2 a3 a4 a5 a6
  unfold BpTree.fwdBlock
  agree [BpTree.scanFwd_agree, Found.orElse_agree, BpTree.tabFwd_agree]

theorem BpTree.fwdSearch_agree : ∀ a1 a2 a3 a4 a5 a6, Agree (@BpTree.fwdSearch dbg a1 a2 a3 a4 a5 a6) (@BpTree.fwdSearch rel a1 a2 a3 a4 a5 a6) := by
  intro a1 a2 a3 a4 a5 a6
  unfold BpTree.fwdSearch
  agree [subR_agree, BpTree.fwdBlock_agree, MMT.fwdSearch_agree]

theorem BpTree.scanBwd_agree : ∀ a1 a2 a3 a4, Agree (@BpTree.scanBwd dbg a1 a2 a3 a4) (@BpTree.scanBwd rel a1 a2 a3 a4) := by
  intro a1 a2 a3 a4
  induction a2 generalizing a1 a3 a4 <;> unfold BpTree.scanBwd <;> agree [addI_agree]

theorem BpTree.tabBwd_agree : ∀ a1 a2 a3 a4 a5, Agree (@BpTree.tabBwd dbg a1 a2 a3 a4 a5) (@BpTree.tabBwd rel a1 a2 a3 a4 a5) := by
  intro a1 a2 a3 a4 a5
  induction a4 generalizing a1 a2 a3 a5 <;> unfold BpTree.tabBwd <;> agree [BpTree.block_agree, Lookup.processBwd_agree, Found.orElse_agree]

theorem BpTree.bwdBlock_agree : ∀ a1 a2 a3 a4 a5 a6, Agree (@BpTree.bwdBlock dbg a1 a2 a3 a4 a5 a6) (@BpTree.bwdBlock rel a1 a2 a3 a4 a5 a6) := by
  intro a1 a2 a3 a4 a5 a6
  unfold BpTree.bwdBlock
  agree [subR_agree, BpTree.scanBwd_agree, Found.orElse_agree, BpTree.tabBwd_agree]

theorem BpTree.bwdSearch_agree : ∀ a1 a2 a3 a4 a5 a6, Agree (@BpTree.bwdSearch dbg a1 a2 a3 a4 a5 a6) (@BpTree.bwdSearch rel a1 a2 a3 a4 a5 a6) := by
  intro a1 a2 a3 a4 a5 a6
  unfold BpTree.bwdSearch
  agree [BpTree.bwdBlock_agree, MMT.bwdSearch_agree]

theorem BpTree.close_agree : ∀ a1 a2 a3 a4 a5, Agree (@BpTree.close dbg a1 a2 a3 a4 a5) (@BpTree.close rel a1 a2 a3 a4 a5) := by
  intro a1 a2 a3 a4 a5
  unfold BpTree.close
  agree [BpTree.fwdSearch_agree]

theorem BpTree.opening_agree : ∀ a1 a2 a3 a4 a5, Agree (@BpTree.opening dbg a1 a2 a3 a4 a5) (@BpTree.opening rel a1 a2 a3 a4 a5) := by
  intro a1 a2 a3 a4 a5
  unfold BpTree.opening
  agree [BpTree.bwdSearch_agree]

theorem BpTree.enclose_agree : ∀ a1 a2 a3 a4 a5, Agree (@BpTree.enclose dbg a1 a2 a3 a4 a5) (@BpTree.enclose rel a1 a2 a3 a4 a5) := by
  intro a1 a2 a3 a4 a5
  unfold BpTree.enclose
  agree [BpTree.bwdSearch_agree]

theorem BpTree.excess_agree : ∀ a1 a2, Agree (@BpTree.excess dbg a1 a2) (@BpTree.excess rel a1 a2) := by
  intro a1 a2
  unfold BpTree.excess
  agree [dassertR_agree, addU_agree, RsVec.rank_agree, subI_agree]

theorem BpTree.assertNode_agree : ∀ a1 a2, (∀ x, ∃ o, a1.vec.get x = .ok o) →
    Agree (@BpTree.assertNode dbg a1 a2) (@BpTree.assertNode rel a1 a2) := by
  intro t n h
  obtain ⟨o, ho⟩ := h n
  unfold BpTree.assertNode
  rw [ho]
  by_cases hc : o = some 1#64
  · subst hc; exact Or.inl rfl
  · refine Or.inr (Or.inr ?_)
    show assertR (o = some 1#64) = _
    rw [assertR, if_neg hc]

theorem BpTree.parent_agree : ∀ a1 a2 a3 a4 a5, (∀ x, ∃ o, a1.vec.get x = .ok o) → Agree (@BpTree.parent dbg a1 a2 a3 a4 a5) (@BpTree.parent rel a1 a2 a3 a4 a5) := by
  intro a1 a2 a3 a4 a5 hwf
  unfold BpTree.parent
  agree [BpTree.assertNode_agree, BpTree.enclose_agree, hwf]

theorem BpTree.firstChild_agree : ∀ a1 a2, (∀ x, ∃ o, a1.vec.get x = .ok o) → Agree (@BpTree.firstChild dbg a1 a2) (@BpTree.firstChild rel a1 a2) := by
  intro a1 a2 hwf
  unfold BpTree.firstChild
  agree [BpTree.assertNode_agree, addU_agree, hwf]

theorem BpTree.nextSibling_agree : ∀ a1 a2 a3 a4 a5, (∀ x, ∃ o, a1.vec.get x = .ok o) → Agree (@BpTree.nextSibling dbg a1 a2 a3 a4 a5) (@BpTree.nextSibling rel a1 a2 a3 a4 a5) := by
  intro a1 a2 a3 a4 a5 hwf
  unfold BpTree.nextSibling
  agree [BpTree.assertNode_agree, BpTree.close_agree, hwf]

theorem BpTree.previousSibling_agree : ∀ a1 a2 a3 a4 a5, (∀ x, ∃ o, a1.vec.get x = .ok o) → Agree (@BpTree.previousSibling dbg a1 a2 a3 a4 a5) (@BpTree.previousSibling rel a1 a2 a3 a4 a5) := by
  intro a1 a2 a3 a4 a5 hwf
  unfold BpTree.previousSibling
  agree [BpTree.assertNode_agree, BpTree.opening_agree, hwf]

theorem BpTree.lastChild_agree : ∀ a1 a2 a3 a4 a5, (∀ x, ∃ o, a1.vec.get x = .ok o) → Agree (@BpTree.lastChild dbg a1 a2 a3 a4 a5) (@BpTree.lastChild rel a1 a2 a3 a4 a5) := by
  intro a1 a2 a3 a4 a5 hwf
  unfold BpTree.lastChild
  agree [BpTree.assertNode_agree, addU_agree, BpTree.close_agree, subR_agree, BpTree.opening_agree, hwf]

theorem BpTree.nodeIndex_agree : ∀ a1 a2, (∀ x, ∃ o, a1.vec.get x = .ok o) → Agree (@BpTree.nodeIndex dbg a1 a2) (@BpTree.nodeIndex rel a1 a2) := by
  intro a1 a2 hwf
  unfold BpTree.nodeIndex
  agree [BpTree.assertNode_agree, RsVec.rank_agree, hwf]

theorem BpTree.nodeHandle_agree : ∀ a1 a2 a3, Agree (@BpTree.nodeHandle dbg a1 a2 a3) (@BpTree.nodeHandle rel a1 a2 a3) := by
  intro a1 a2 a3
  unfold BpTree.nodeHandle
  agree [RsVec.select_agree]

theorem BpTree.isLeaf_agree : ∀ a1 a2, (∀ x, ∃ o, a1.vec.get x = .ok o) → Agree (@BpTree.isLeaf dbg a1 a2) (@BpTree.isLeaf rel a1 a2) := by
  intro a1 a2 hwf
  unfold BpTree.isLeaf
  agree [BpTree.assertNode_agree, addU_agree, hwf]

theorem BpTree.depth_agree : ∀ a1 a2, (∀ x, ∃ o, a1.vec.get x = .ok o) → Agree (@BpTree.depth dbg a1 a2) (@BpTree.depth rel a1 a2) := by
  intro a1 a2 hwf
  unfold BpTree.depth
  agree [BpTree.assertNode_agree, BpTree.excess_agree, hwf]

theorem BpTree.size_agree : ∀ a1, Agree (@BpTree.size dbg a1) (@BpTree.size rel a1) := by
  intro a1
  unfold BpTree.size
  agree [RsVec.rank_agree]

theorem BpTree.isAncestor_agree : ∀ a1 a2 a3 a4 a5 a6, (∀ x, ∃ o, a1.vec.get x = .ok o) → Agree (@BpTree.isAncestor dbg a1 a2 a3 a4 a5 a6) (@BpTree.isAncestor rel a1 a2 a3 a4 a5 a6) := by
  intro a1 a2 a3 a4 a5 a6 hwf
  unfold BpTree.isAncestor
  agree [BpTree.assertNode_agree, BpTree.close_agree, hwf]

theorem BpTree.levelAncestor_agree : ∀ a1 a2 a3 a4 a5 a6, Agree (@BpTree.levelAncestor dbg a1 a2 a3 a4 a5 a6) (@BpTree.levelAncestor rel a1 a2 a3 a4 a5 a6) := by
  intro a1 a2 a3 a4 a5 a6
  unfold BpTree.levelAncestor
  agree [subI_agree, BpTree.bwdSearch_agree]

theorem BpTree.levelNext_agree : ∀ a1 a2 a3 a4 a5, Agree (@BpTree.levelNext dbg a1 a2 a3 a4 a5) (@BpTree.levelNext rel a1 a2 a3 a4 a5) := by
  intro a1 a2 a3 a4 a5
  unfold BpTree.levelNext
  agree [BpTree.close_agree, BpTree.fwdSearch_agree]

theorem BpTree.levelPrev_agree : ∀ a1 a2 a3 a4 a5, Agree (@BpTree.levelPrev dbg a1 a2 a3 a4 a5) (@BpTree.levelPrev rel a1 a2 a3 a4 a5) := by
  intro a1 a2 a3 a4 a5
  unfold BpTree.levelPrev
  agree [BpTree.bwdSearch_agree, BpTree.opening_agree]

theorem BpTree.levelLeftmost_agree : ∀ a1 a2 a3 a4 a5, Agree (@BpTree.levelLeftmost dbg a1 a2 a3 a4 a5) (@BpTree.levelLeftmost rel a1 a2 a3 a4 a5) := by
  intro a1 a2 a3 a4 a5
  unfold BpTree.levelLeftmost
  agree [BpTree.fwdSearch_agree]

theorem BpTree.levelRightmost_agree : ∀ a1 a2 a3 a4 a5, Agree (@BpTree.levelRightmost dbg a1 a2 a3 a4 a5) (@BpTree.levelRightmost rel a1 a2 a3 a4 a5) := by
  intro a1 a2 a3 a4 a5
  unfold BpTree.levelRightmost
  agree [BpTree.size_agree, subR_agree, BpTree.bwdSearch_agree, BpTree.opening_agree]

theorem BpTree.subtreeSize_agree : ∀ a1 a2 a3 a4 a5, (∀ x, ∃ o, a1.vec.get x = .ok o) → Agree (@BpTree.subtreeSize dbg a1 a2 a3 a4 a5) (@BpTree.subtreeSize rel a1 a2 a3 a4 a5) := by
  intro a1 a2 a3 a4 a5 hwf
  unfold BpTree.subtreeSize
  agree [BpTree.assertNode_agree, BpTree.close_agree, RsVec.rank_agree, subR_agree, hwf]

theorem BpTree.dfsIter_agree : ∀ a1, Agree (@BpTree.dfsIter dbg a1) (@BpTree.dfsIter rel a1) := by
  intro a1
  unfold BpTree.dfsIter
  agree [SelIter.new_agree]

theorem BpTree.mapOpen_agree : ∀ a1 a2 a3 a4, Agree (@BpTree.mapOpen dbg a1 a2 a3 a4) (@BpTree.mapOpen rel a1 a2 a3 a4) := by
  intro a1 a2 a3 a4
  unfold BpTree.mapOpen
  agree [BpTree.opening_agree]

theorem BpTree.dfsPostIter_agree : ∀ a1, Agree (@BpTree.dfsPostIter dbg a1) (@BpTree.dfsPostIter rel a1) := by
  intro a1
  unfold BpTree.dfsPostIter
  agree [SelIter.new_agree]

theorem BpTree.dfsPostNext_agree : ∀ a1 a2 a3 a4, Agree (@BpTree.dfsPostNext dbg a1 a2 a3 a4) (@BpTree.dfsPostNext rel a1 a2 a3 a4) := by
  intro a1 a2 a3 a4
  unfold BpTree.dfsPostNext
  agree [SelIter.next_agree, BpTree.mapOpen_agree]

theorem BpTree.skipNext_agree : ∀ a1 a2 a3, Agree (@BpTree.skipNext dbg a1 a2 a3) (@BpTree.skipNext rel a1 a2 a3) := by
  intro a1 a2 a3
  unfold BpTree.skipNext
  agree [SelIter.nth_agree, SelIter.next_agree]

theorem BpTree.takeNext_agree : ∀ a1 a2 a3, Agree (@BpTree.takeNext dbg a1 a2 a3) (@BpTree.takeNext rel a1 a2 a3) := by
  intro a1 a2 a3
  unfold BpTree.takeNext
  agree [BpTree.skipNext_agree]

theorem BpTree.subtreeIter_agree : ∀ a1 a2 a3 a4, (∀ x, ∃ o, a1.vec.get x = .ok o) → Agree (@BpTree.subtreeIter dbg a1 a2 a3 a4) (@BpTree.subtreeIter rel a1 a2 a3 a4) := by
  intro a1 a2 a3 a4 hwf
  unfold BpTree.subtreeIter
  agree [BpTree.assertNode_agree, RsVec.rank_agree, BpTree.close_agree, subR_agree, SelIter.new_agree, hwf]

theorem BpTree.subtreeNext_agree : ∀ a1 a2, Agree (@BpTree.subtreeNext dbg a1 a2) (@BpTree.subtreeNext rel a1 a2) := by
  intro a1 a2
  unfold BpTree.subtreeNext
  agree [BpTree.takeNext_agree]

theorem BpTree.subtreePostIter_agree : ∀ a1 a2 a3 a4, (∀ x, ∃ o, a1.vec.get x = .ok o) → Agree (@BpTree.subtreePostIter dbg a1 a2 a3 a4) (@BpTree.subtreePostIter rel a1 a2 a3 a4) := by
  intro a1 a2 a3 a4 hwf
  unfold BpTree.subtreePostIter
  agree [BpTree.assertNode_agree, RsVec.rank_agree, BpTree.close_agree, subR_agree, SelIter.new_agree, hwf]

theorem BpTree.subtreePostNext_agree : ∀ a1 a2 a3 a4, Agree (@BpTree.subtreePostNext dbg a1 a2 a3 a4) (@BpTree.subtreePostNext rel a1 a2 a3 a4) := by
  intro a1 a2 a3 a4
  unfold BpTree.subtreePostNext
  agree [BpTree.takeNext_agree, BpTree.mapOpen_agree]

theorem BpTree.childrenIter_agree : ∀ a1 a2 a3 a4 a5, (∀ x, ∃ o, a1.vec.get x = .ok o) → Agree (@BpTree.childrenIter dbg a1 a2 a3 a4 a5) (@BpTree.childrenIter rel a1 a2 a3 a4 a5) := by
  intro a1 a2 a3 a4 a5 hwf
  unfold BpTree.childrenIter
  agree [BpTree.assertNode_agree, BpTree.firstChild_agree, BpTree.lastChild_agree, hwf]

theorem BpTree.childrenNext_agree : ∀ a1 a2 a3 a4 a5, (∀ x, ∃ o, a1.vec.get x = .ok o) → Agree (@BpTree.childrenNext dbg a1 a2 a3 a4 a5) (@BpTree.childrenNext rel a1 a2 a3 a4 a5) := by
  intro a1 a2 a3 a4 a5 hwf
  unfold BpTree.childrenNext
  agree [BpTree.nextSibling_agree, BpTree.previousSibling_agree, hwf]

theorem BpBuilder.withCapacity_agree : ∀ a1, Agree (@BpBuilder.withCapacity dbg a1) (@BpBuilder.withCapacity rel a1) := by
  intro a1
  unfold BpBuilder.withCapacity
  agree [mulU_agree]

theorem BpBuilder.enterNode_agree : ∀ a1, Agree (@BpBuilder.enterNode dbg a1) (@BpBuilder.enterNode rel a1) := by
  intro a1
  unfold BpBuilder.enterNode
  agree [addI_agree]

theorem BpBuilder.leaveNode_agree : ∀ a1, Agree (@BpBuilder.leaveNode dbg a1) (@BpBuilder.leaveNode rel a1) := by
  intro a1
  unfold BpBuilder.leaveNode
  agree [subI_agree]

theorem BpBuilder.build_agree : ∀ a1 a2, Agree (@BpBuilder.build dbg a1 a2) (@BpBuilder.build rel a1 a2) := by
  intro a1 a2
  unfold BpBuilder.build
  agree [BpTree.fromBitVector_agree]

theorem BpBuilder.call_agree : ∀ a1 a2, Agree (@BpBuilder.call dbg a1 a2) (@BpBuilder.call rel a1 a2) := by
  intro a1 a2
  unfold BpBuilder.call
  agree [BpBuilder.enterNode_agree, BpBuilder.leaveNode_agree]

theorem BpBuilder.calls_agree : ∀ a1 a2, Agree (@BpBuilder.calls dbg a1 a2) (@BpBuilder.calls rel a1 a2) := by
  intro a1 a2
  induction a1 generalizing a2 <;> unfold BpBuilder.calls <;> agree [BpBuilder.call_agree]

theorem BsIter.new_agree : ∀ a1 a2, Agree (@BsIter.new dbg a1 a2) (@BsIter.new rel a1 a2) := by
  intro a1 a2
  unfold BsIter.new
  agree [RsVec.getBitsUnchecked_agree]

theorem BsIter.loadNext_agree : ∀ a1 a2 a3 a4, Agree (@BsIter.loadNext dbg a1 a2 a3 a4) (@BsIter.loadNext rel a1 a2 a3 a4) := by
  intro a1 a2 a3 a4
  induction a3 generalizing a1 a2 a4 <;> unfold BsIter.loadNext <;> agree [RsVec.getBitsUnchecked_agree]

theorem BsIter.next_agree : ∀ a1 a2 a3, Agree (@BsIter.next dbg a1 a2 a3) (@BsIter.next rel a1 a2 a3) := by
  intro a1 a2 a3
  unfold BsIter.next
  agree [BsIter.loadNext_agree]

theorem RsVec.ofBitVec_agree : ∀ a1, Agree (@RsVec.ofBitVec dbg a1) (@RsVec.ofBitVec rel a1) := by
  intro a1
  unfold RsVec.ofBitVec
  agree [RsVec.fromBitVec_agree]

theorem RsVec.selectIter_agree : ∀ a1 a2, Agree (@RsVec.selectIter dbg a1 a2) (@RsVec.selectIter rel a1 a2) := by
  intro a1 a2
  unfold RsVec.selectIter
  agree [SelIter.new_agree]

theorem RsVec.iter0_agree : ∀ a1, Agree (@RsVec.iter0 dbg a1) (@RsVec.iter0 rel a1) := by
  intro a1
  unfold RsVec.iter0
  agree [RsVec.selectIter_agree]

theorem RsVec.iter1_agree : ∀ a1, Agree (@RsVec.iter1 dbg a1) (@RsVec.iter1 rel a1) := by
  intro a1
  unfold RsVec.iter1
  agree [RsVec.selectIter_agree]

theorem BpTree.ofBitVec_agree : ∀ a1 a2, Agree (@BpTree.ofBitVec dbg a1 a2) (@BpTree.ofBitVec rel a1 a2) := by
  intro a1 a2
  unfold BpTree.ofBitVec
  agree [BpTree.fromBitVector_agree]

theorem EF.select_agree : ∀ a1 a2, Agree (@EF.select dbg a1 a2) (@EF.select rel a1 a2) := by
  intro a1 a2
  unfold EF.select
  agree [EF.get_agree]

theorem BinRmq.ofU64s_agree : ∀ a1, Agree (@BinRmq.ofU64s dbg a1) (@BinRmq.ofU64s rel a1) := by
  intro a1
  unfold BinRmq.ofU64s
  agree [BinRmq.fromVec_agree]

theorem FastRmq.ofU64s_agree : ∀ a1, Agree (@FastRmq.ofU64s dbg a1) (@FastRmq.ofU64s rel a1) := by
  intro a1
  unfold FastRmq.ofU64s
  agree [FastRmq.fromVec_agree]

end Vers
