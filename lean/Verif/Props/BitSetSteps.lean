import Verif.Proofs.BitSetSteps
import Verif.Proofs.EqSteps
import Verif.Props.BitSet
import Verif.Props.RsIterSteps

/-! # Property C86: the number of steps of the bit set iterators

`BsIter.loopC rs zero n` creates a bit set iterator and calls `next` `n` times, with a counter for the chunks of 16 bits
that are loaded, the single bits that are read after them and the offsets that are read (`Model/BitSetSteps.lean`).
`SelIter.callsC` is the same for `iter0` and `iter1` (`Model/RsIterSteps.lean`). The claim is that the bit set iterators
are faster for dense vectors and slower for sparse vectors. -/

namespace Vers

variable [Profile]
open Spec

/-- a loop has the results of the calls -/
theorem bsCallsC_result (rs : RsVec) (zero : Bool) : ∀ (n : Nat) (it : BsIter),
    (BsIter.callsC rs zero n it).result = runNext (BsIter.next rs zero) n it
  | 0, _ => rfl
  | n + 1, it => by
    unfold BsIter.callsC runNext
    rw [Counted.result_bind, BsIter.nextC_result]
    congr 1; funext p
    rw [Counted.result_bind, bsCallsC_result rs zero n p.1]
    rfl

/-- The step counter does not change the results of the calls, for every structure. -/
theorem C86_counter (rs : RsVec) (zero : Bool) (n : Nat) :
    (BsIter.loopC rs zero n).result = BsIter.new rs zero >>= fun it => runNext (BsIter.next rs zero) n it := by
  unfold BsIter.loopC
  rw [Counted.result_bind, BsIter.newC_result]
  congr 1; funext it
  exact bsCallsC_result rs zero n it

/-- 20 bits with ones at 2 and 17 (the last chunk is seen twice, C52): two chunks, three offsets, and three bits. -/
example : (do
    let rs ← RsVec.fromBitVec ⟨[0x20004#64], 20⟩
    let l ← (BsIter.loopC rs false 4).result
    pure (l, (BsIter.loopC rs false 4).steps)) = .ok ([some 2, some 17, some 17, none], 8) := by
  decide +revert +kernel

/-- `n` calls take at most `n` steps besides one for each chunk of 16 bits and each bit of the last chunk, however the bits
are distributed, and for every structure. -/
theorem C86_loop (rs : RsVec) (zero : Bool) (n : Nat) :
    (BsIter.loopC rs zero n).steps ≤ n + rs.len / 16 + 17 := BsIter.loopC_spends n

example : (do
    let rs ← RsVec.fromBitVec (BV.fromOnes 64)
    pure ((BsIter.loopC rs false 64).steps ≤ 85)) = .ok True := by
  obtain ⟨rs, h1, -, -, h4⟩ := fromBitVec_inv (BV.wf_fromOnes 64)
  rw [h1, ok_bind]
  have := C86_loop rs false 64
  rw [h4] at this
  exact congrArg Except.ok (eq_true this)

/-- the first calls of the select iterators -/
theorem selCallsC_take {rs : RsVec} {zero : Bool} (h : rs.Inv) : ∀ (n : Nat) (it : SelIter) (l : List Nat),
    SelIter.Rel rs zero it l → n ≤ l.length →
    (SelIter.callsC rs zero n it).result = .ok ((l.take n).map some) ∧
      (SelIter.callsC rs zero n it).steps ≤ (6 + 2 * (rs.supers.length - 1)) * n
  | 0, _, _, _, _ => ⟨rfl, Nat.zero_le _⟩
  | n + 1, it, l, hr, hn => by
    obtain ⟨it', g1, g2, -, g4, -⟩ := SelIter.nextC_rel h hr
    cases l with
    | nil => simp at hn
    | cons p l =>
      obtain ⟨i1, i2⟩ := selCallsC_take h n it' l g2 (by simp at hn; omega)
      unfold SelIter.callsC
      rw [Counted.bind_of g1, Counted.bind_of i1]
      refine ⟨rfl, ?_⟩
      show _ + (_ + 0) ≤ _
      rw [Nat.mul_succ]
      omega

/-- On dense vectors the bit set iterators are faster: the first `k` positions are found in fewer steps than with `iter0`
or `iter1`, if `4 k` exceeds the number of chunks and 17. (For the ones of a vector of which more than one in 64 bits is
set, this holds for the loop over all of them, if it is long enough.) -/
theorem C86_dense {v : BV} (h : v.WF) (zero : Bool) {k : Nat} (hk : k ≤ v.bits.count (!zero))
    (hd : v.len / 16 + 17 < 4 * k) :
    ∃ rs it, RsVec.fromBitVec v = .ok rs ∧ SelIter.new rs zero = .ok it ∧
      (SelIter.callsC rs zero k it).result = .ok (((positions (!zero) v.bits).take k).map some) ∧
      (BsIter.loopC rs zero k).steps < (SelIter.callsC rs zero k it).steps := by
  obtain ⟨rs, h1, h2, h3, h4⟩ := fromBitVec_inv h
  obtain ⟨it, i1, i2, -⟩ := SelIter.new_rel (zero := zero) h2
  rw [bits_of_from h3 h4] at i2
  obtain ⟨c1, -⟩ := selCallsC_take h2 k it _ i2 (by rw [length_positions]; exact hk)
  refine ⟨rs, it, h1, i1, c1, ?_⟩
  have s1 := SelIter.callsC_ge k it _ c1
  have s2 := BsIter.loopC_spends (rs := rs) (zero := zero) k
  omega

example := C86_dense (v := BV.fromOnes 1000) (BV.wf_fromOnes _) false (k := 1000)
  (by rw [BV.bits_fromOnes, List.count_replicate, if_pos (by decide)]) (by decide)

/-- On sparse vectors they are slower: a loop that reaches the end loads every chunk of 16 bits, so that it takes more
steps than the loop over all positions with `iter0` or `iter1`, if there are few positions in relation to the length. -/
theorem C86_sparse {v : BV} (h : v.WF) (zero : Bool) :
    ∃ rs it, RsVec.fromBitVec v = .ok rs ∧ SelIter.new rs zero = .ok it ∧
      (SelIter.callsC rs zero (v.bits.count (!zero)) it).result = .ok ((positions (!zero) v.bits).map some) ∧
      ∀ n l, (BsIter.loopC rs zero n).result = .ok l → none ∈ l →
        v.len ≤ 16 * (BsIter.loopC rs zero n).steps ∧
        (16 * ((6 + 2 * (v.len / 8192)) * v.bits.count (!zero)) < v.len →
          (SelIter.callsC rs zero (v.bits.count (!zero)) it).steps < (BsIter.loopC rs zero n).steps) := by
  obtain ⟨rs, h1, h2, h3, h4⟩ := fromBitVec_inv h
  obtain ⟨it, i1, i2, -⟩ := SelIter.new_rel (zero := zero) h2
  rw [bits_of_from h3 h4] at i2
  obtain ⟨c1, c2⟩ := selCallsC_take h2 (v.bits.count (!zero)) it _ i2 (by rw [length_positions])
  rw [List.take_of_length_le (by rw [length_positions])] at c1
  refine ⟨rs, it, h1, i1, c1, fun n l hl hn => ?_⟩
  have s1 := BsIter.loopC_reach n l hl hn
  rw [h4] at s1
  refine ⟨s1, fun hs => ?_⟩
  have hS := RsVec.supers_le h2
  rw [h4] at hS
  have := Nat.mul_le_mul_right (v.bits.count (!zero))
    (show 6 + 2 * (rs.supers.length - 1) ≤ 6 + 2 * (v.len / 8192) by omega)
  omega

/-- One call reaches the end of 200 zeros: 12 chunks after the first one, and 8 bits. -/
example : (do
    let rs ← RsVec.fromBitVec (BV.fromZeros 200)
    let l ← (BsIter.loopC rs false 1).result
    pure (l, (BsIter.loopC rs false 1).steps)) = .ok ([none], 21) := by decide +revert +kernel

/-- A sparse vector. -/
example : ∃ v : BV, v.WF ∧ v.len = 501 ∧ 16 * ((6 + 2 * (v.len / 8192)) * v.bits.count (!false)) < v.len := by
  obtain ⟨v, v1, v2⟩ := exists_bv (List.replicate 500 false ++ [true])
  have hl : v.len = 501 := by rw [← BV.length_bits, v2, List.length_append, List.length_replicate]; rfl
  refine ⟨v, v1, hl, ?_⟩
  rw [hl, v2, List.count_append, List.count_replicate, if_neg (by decide)]
  decide

end Vers
