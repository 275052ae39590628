import Verif.Props.BitVec
import Verif.Props.RsVec
import Verif.Props.GenIter
import Verif.Props.EliasFano
import Verif.Props.Sparse
import Verif.Props.Rmq
import Verif.Props.Wavelet
import Verif.Props.BpTree
import Verif.Props.Unchecked
import Verif.Proofs.Space

/-!
# Release builds

The model is generic in the build profile, and so are the theorems of the other files, unless they carry the
hypothesis `Profile.debug = true`. Those are the deviations in which a debug build panics because of an overflow
or of a failing `debug_assert!`. This file says what a release build does in their place: in some cases it
behaves as documented, in the others it returns a wrong result or panics at a later place.
-/

set_option linter.unusedSimpArgs false

namespace Vers
open Spec

variable [Profile]

theorem addU_release (hd : Profile.debug = false) {a b : Nat} (h : 2 ^ 64 ≤ a + b) (h2 : a + b < 2 ^ 65) :
    addU a b = .ok (a + b - 2 ^ 64) := by
  rw [addU, if_neg (by omega), wrapR_release hd, show (a + b) % 2 ^ 64 = a + b - 2 ^ 64 by omega]

theorem subR_release (hd : Profile.debug = false) {a b : Nat} (h : a < b) (h2 : b < 2 ^ 64) :
    subR a b = .ok (2 ^ 64 + a - b) := by
  rw [subR, if_neg (by omega), wrapR_release hd, show (2 ^ 64 + a - b) % 2 ^ 64 = 2 ^ 64 + a - b by omega]

theorem mulU_release (hd : Profile.debug = false) (a b : Nat) : mulU a b = .ok (a * b % 2 ^ 64) := by
  unfold mulU
  split
  · rw [Nat.mod_eq_of_lt ‹_›]
  · rw [wrapR_release hd]

/-! ## Bit vectors -/

/-- Release builds, instead of `C04_get_bits_overflow_defect`: a request whose end exceeds `usize::MAX` returns
`None` as documented if the excess part is longer than the vector, and accesses a limb out of bounds otherwise. -/
theorem C04_get_bits_release_defect (hd : Profile.debug = false) {v : BV} (h : v.WF) (hl : v.len < 2 ^ 63)
    (pos n : Nat) (h1 : 1 ≤ n) (h2 : n ≤ 64) (hp : pos < 2 ^ 64) (h3 : 2 ^ 64 ≤ pos + n) :
    v.getBits pos n = if v.len < pos + n - 2 ^ 64 then .ok none else .error .oob := by
  unfold BV.WF at h
  unfold BV.getBits
  rw [if_neg (by omega), addU_release hd h3 (by omega), ok_bind]
  by_cases hc : v.len < pos + n - 2 ^ 64
  · rw [if_pos hc, if_pos hc]; rfl
  · rw [if_neg hc, if_neg hc]
    unfold BV.getBitsUnchecked BV.getBitsRaw
    rw [dassertR_true h2, ok_bind, idx_of_ge (by omega)]; rfl

example (hd : Profile.debug = false) := C04_get_bits_release_defect hd (v := BV.fromOnes 70) (by decide) (by decide)
  18446744073709551610 10 (by decide) (by decide) (by decide) (by decide)

/-- The same for the vector with rank and select support, instead of `C16_get_bits_overflow_defect`. -/
theorem C16_get_bits_release_defect (hd : Profile.debug = false) {v : BV} (h : v.WF) (hl : v.len < 2 ^ 63) :
    ∃ rs, RsVec.fromBitVec v = .ok rs ∧ ∀ pos n, n ≤ 64 → pos < 2 ^ 64 → 2 ^ 64 ≤ pos + n →
      rs.getBits pos n = if v.len < pos + n - 2 ^ 64 then .ok none else .error .oob := by
  obtain ⟨rs, r1, -, r3, r4⟩ := fromBitVec_inv h
  refine ⟨rs, r1, fun pos n h2 hp h3 => ?_⟩
  unfold BV.WF at h
  unfold RsVec.getBits
  rw [if_neg (by omega), addU_release hd h3 (by omega), ok_bind, r4]
  by_cases hc : v.len < pos + n - 2 ^ 64
  · rw [if_pos hc, if_pos hc]; rfl
  · rw [if_neg hc, if_neg hc]
    unfold RsVec.getBitsUnchecked BV.getBitsRaw
    rw [dassertR_true h2, ok_bind, r3, idx_of_ge (by omega)]; rfl

example : (BV.fromOnes 70).WF ∧ (BV.fromOnes 70).len < 2 ^ 63 ∧ ¬((BV.fromOnes 70).len < (2 ^ 64 - 1) + 2 - 2 ^ 64) := by
  decide

/-- Release builds, instead of `C05_unpack_overflow_defect`: the product of index and width is reduced modulo 2^64.
So if the width is a power of two, the index `i + 2^64 / b`, which lies far behind the end, returns the element
with index `i`, on every vector. -/
theorem C05_unpack_release_defect (hd : Profile.debug = false) (v : BV) (i b : Nat) (hb : b ∣ 2 ^ 64) :
    v.unpackElement (i + 2 ^ 64 / b) b = v.unpackElement i b := by
  unfold BV.unpackElement
  rw [mulU_release hd, mulU_release hd, Nat.add_mul, Nat.div_mul_cancel hb, Nat.add_mod_right]

/-- a vector of eight bytes, read at index 2^61 + 3 -/
example (hd : Profile.debug = false) :
    (do
      let v ← BV.packSequence 8 [1#64, 2#64, 3#64, 4#64, 5#64, 6#64, 7#64, 8#64] 8
      v.unpackElement (2 ^ 61 + 3) 8) = .ok (some 4#64) := by decide +revert +kernel

/-! ## Iterators -/

/-- Release builds, instead of `C20_nth_overflow_defect`: if the position of the iterator plus `n` exceeds
`usize::MAX + 1`, the iterator is set back to an element it has already passed, and returns that one. After any
sequence of calls that leaves at least one element. -/
theorem C20_nth_release_defect (hd : Profile.debug = false) {v : BV} (h : v.WF) (hl : v.len < 2 ^ 64) (ops : List IterOp)
    (hops : CallsOk NthInRange (v.bits.map b2w) ops) (hne : iterRest (v.bits.map b2w) ops ≠ []) :
    ∃ it, reach (GenIter.step v.vecOps) (GenIter.new v.vecOps) ops = .ok it ∧
      ∀ j, 0 < j → j < it.index → ∃ it', it.nth v.vecOps (2 ^ 64 - it.index + j) =
        .ok (it', (v.bits.map b2w)[j]?) ∧ it'.index = j + 1 := by
  have hr := vecOps_repr h hl
  obtain ⟨it, g1, g2⟩ := GenIter.reach_eq hr ops hops
  refine ⟨it, g1, fun j j0 hj => ?_⟩
  have hlen := g2.length
  have hpos := List.length_pos_iff.mpr hne
  have hhi := g2.hi
  have hrl := hr.lt
  have hle := g2.le
  obtain ⟨b, hb⟩ : ∃ b, it.back = some b := by
    cases hb : it.back with
    | none =>
      have : it.hi = 0 := by simp [GenIter.hi, hb]
      omega
    | some b => exact ⟨b, rfl⟩
  have hhi' : it.hi = b + 1 := by simp [GenIter.hi, hb]
  obtain ⟨n, hn⟩ : ∃ n, n = 2 ^ 64 - it.index + j := ⟨_, rfl⟩
  rw [← hn]
  have key : it.advanceBy n = .ok (.ok { it with index := j }) := by
    unfold GenIter.advanceBy
    rw [if_neg (by omega), addU_release hd (by omega) (by omega), ok_bind, subR_of_le (by omega), ok_bind, hb]
    have hj2 : it.index + n - 2 ^ 64 = j := by omega
    rw [hj2]
    simp only [someGt, show ¬(j - 1 > b) by omega, decide_false, Bool.false_eq_true, if_false]
    rfl
  unfold GenIter.nth
  rw [key, ok_bind]
  simp only
  unfold GenIter.next GenIter.isEmpty
  simp only [hb, someGt, show ¬(j > b) by omega, decide_false, Bool.false_eq_true, if_false, hr.get, ok_bind]
  rw [List.getElem?_eq_getElem (by omega)]
  exact ⟨_, rfl, rfl⟩

omit [Profile] in
/-- The cases left out by `NthBackOk`, in terms of the state. -/
theorem SelIter.nthBack_front {rs : RsVec} {zero : Bool} {s : SelIter} {l : List Nat} {n : Nat}
    (hr : SelIter.Rel rs zero s l) (hn : ¬NthBackOk (positions (!zero) rs.intoBitVec.bits) l (.nthBack n)) :
    s.nextRank = 0 ∧ l ≠ [] ∧ l.length ≤ n ∧ l.head? = (positions (!zero) rs.intoBitVec.bits).head? := by
  simp only [NthBackOk, not_or, Nat.not_lt, ne_eq, Classical.not_not] at hn
  obtain ⟨n1, n2, n3⟩ := hn
  refine ⟨?_, n2, n1, n3⟩
  have hl := hr.2
  apply Classical.byContradiction
  intro h0
  have hsorted := (positionsFrom_sorted (!zero) rs.intoBitVec.bits 0).1
  cases l with
  | nil => exact n2 rfl
  | cons x l =>
    have hx : (positions (!zero) rs.intoBitVec.bits)[s.nextRank]? = some x := by
      have := congrArg (·[0]?) hl
      simp only [List.getElem?_cons_zero, List.getElem?_drop, Nat.add_zero, List.getElem?_take] at this
      split at this
      · exact this.symm
      · cases this
    rw [List.head?_cons, List.head?_eq_getElem?] at n3
    obtain ⟨b1, b2⟩ := List.getElem?_eq_some_iff.mp hx
    obtain ⟨a1, a2⟩ := List.getElem?_eq_some_iff.mp n3.symm
    have := List.pairwise_iff_getElem.mp hsorted 0 s.nextRank a1 b1 (by omega)
    unfold positions at a2 b2
    omega

/-- Release builds, instead of `C19_nth_back_defect`: if elements remain, the first one among them, but not more
than `n`, then `nth_back(n)` panics with an index out of bounds if exactly `n` remain. Otherwise it returns
`None` without ending the iteration: the following call of `next` returns the first element. -/
theorem C19_nth_back_release_defect (hd : Profile.debug = false) {v : BV} (h : v.WF) (hlen : v.len < 2 ^ 60) (zero : Bool) :
    ∃ rs it, RsVec.fromBitVec v = .ok rs ∧ SelIter.new rs zero = .ok it ∧
      ∀ ops : List IterOp, CallsOk (NthBackOk (positions (!zero) v.bits)) (positions (!zero) v.bits) ops →
        ∀ n, ¬NthBackOk (positions (!zero) v.bits) (iterRest (positions (!zero) v.bits) ops) (.nthBack n) →
          ∃ it', reach (SelIter.step rs zero) it ops = .ok it' ∧
            (n = (iterRest (positions (!zero) v.bits) ops).length → it'.nthBack rs zero n = .error .oob) ∧
            ((iterRest (positions (!zero) v.bits) ops).length < n →
              ∃ it1 it2, it'.nthBack rs zero n = .ok (it1, none) ∧
                it1.next rs zero = .ok (it2, (positions (!zero) v.bits).head?)) := by
  obtain ⟨rs, h1, h2, h3, h4⟩ := fromBitVec_inv h
  obtain ⟨it, i1, i2, -⟩ := SelIter.new_rel (zero := zero) h2
  have hs := SelIter.step_ok h2 (zero := zero)
  have hb := bits_of_from h3 h4
  rw [hb] at i2 hs
  refine ⟨rs, it, h1, i1, fun ops hops n hn => ?_⟩
  obtain ⟨it', g1, g2⟩ := reach_of_sim (rel := SelIter.Rel rs zero) hs ops it _ i2 hops
  refine ⟨it', g1, ?_⟩
  generalize iterRest (positions (!zero) v.bits) ops = l at hn g2
  rw [← hb] at hn ⊢
  obtain ⟨n0, n1, n2, n3⟩ := SelIter.nthBack_front g2 hn
  have hll := SelIter.len_rel g2
  have hle := SelIter.len_eq it'
  have hpos : 0 < l.length := List.length_pos_iff.mpr n1
  obtain ⟨x, hx⟩ : ∃ x, it'.nextRankBack = some x := by
    cases hb : it'.nextRankBack with
    | none => simp [SelIter.upTo, hb] at hle; omega
    | some x => exact ⟨x, rfl⟩
  have hu : it'.upTo = x + 1 := by simp [SelIter.upTo, hx]
  have hsel := selects_len h h1
  have hx2 : x < 2 ^ 63 := by
    have hxl := (g2.1 x hx).xlt
    have := C_le rs.data (!zero) rs.len
    omega
  unfold SelIter.nthBack SelIter.advanceBackBy
  rw [hx]
  simp only [SelIter.subBack]
  constructor
  · intro hn
    rw [if_pos (by omega), subR_release hd (by omega) (by omega), ok_bind]
    simp only [pure_eq_ok, ok_bind, if_true]
    unfold SelIter.nextBack
    simp only
    rw [if_neg (by omega)]
    unfold SelIter.bwdLocate
    have hwf : v.data.length = (v.len + 63) / 64 := h
    have hr0 := h2.r0
    have := C_le rs.data false rs.len
    rw [idx_of_ge (by omega)]; rfl
  · intro hn
    rw [if_neg (by omega), subR_release hd (by omega) (by omega), ok_bind]
    simp only [pure_eq_ok, ok_bind, Bool.false_eq_true, if_false]
    obtain ⟨it2, k1, -⟩ := SelIter.next_rel h2 g2
    unfold SelIter.next at k1
    rw [hx] at k1
    simp only at k1
    have hg : ¬(it'.nextRank ≥ (if zero then rs.rank0 else rs.rank1) ∨ it'.nextRank > x) := by
      intro hc
      rw [if_pos hc] at k1
      injection k1 with k1
      injection k1 with _ k1
      exact n1 (List.head?_eq_none_iff.mp k1.symm)
    rw [if_neg hg] at k1
    obtain ⟨t, t1, k1⟩ := bind_eq_ok.mp k1
    obtain ⟨q, q1, k1⟩ := bind_eq_ok.mp k1
    refine ⟨_, ⟨{ it' with
        nextRank := it'.nextRank + 1, nextRankBack := some (2 ^ 64 + x - it'.len), lastSuper := t.1, lastBlock := q.2 },
      rfl, ?_⟩⟩
    unfold SelIter.next
    simp only
    rw [if_neg (by omega)]
    have ht : SelIter.fwdLocate rs zero { it' with nextRankBack := some (2 ^ 64 + x - it'.len) } = .ok t := t1
    rw [ht, ok_bind, q1, ok_bind]
    injection k1 with k1
    injection k1 with _ k1
    rw [← n3, ← k1]; rfl

example : ¬NthBackOk [0, 2, 3, 5] (iterRest [0, 2, 3, 5] [.nextBack, .len]) (.nthBack 3) ∧
    ¬NthBackOk [0, 2, 3, 5] (iterRest [0, 2, 3, 5] [.nextBack, .len]) (.nthBack 4) := by
  simp [iterStep, iterRest, NthBackOk]

/-- The ones of a vector of five bits, after `nth_back(5)` returned `None`. -/
example (hd : Profile.debug = false) :
    (do
      let rs ← RsVec.fromBitVec (BV.fromOnes 3)
      let it ← SelIter.new rs false
      execute (SelIter.step rs false) it [.nthBack 4, .next, .next]) =
        .ok [.item none, .item (some 0), .item (some 1)] := by decide +revert +kernel

/-- The Elias-Fano iterator, instead of `C26_nth_overflow_defect`: after three calls of `next` on eight elements,
`nth(usize::MAX)` panics because the upper iterator is exhausted. -/
theorem C26_nth_release_defect (hd : Profile.debug = false) :
    (do
      let ef ← EF.fromSlice ceilLog2 efExample
      let it ← EfIter.new ef
      execute (EfIter.step ef) it [.next, .next, .next, .nth (2 ^ 64 - 1)]) = .error .unwrap := by
  decide +revert +kernel

/-! ## Range minimum queries -/

theorem endBound_zero (hd : Profile.debug = false) {n : Nat} (hn : 0 < n) (h : n ≤ 2 ^ 64) :
    endBound n (.excluded 0) = endBound n .unbounded := by
  unfold endBound
  simp only
  rw [subR_release hd (by omega) (by omega), subR_of_le hn, ok_bind, ok_bind, ok_bind, pure_eq_ok]
  congr 1; omega

theorem startBound_max (hd : Profile.debug = false) {n : Nat} (hn : 0 < n) :
    startBound n (.excluded 18446744073709551615) = startBound n .unbounded := by
  unfold startBound
  simp only
  rw [addU_release hd (by omega) (by omega), subR_of_le hn]; rfl

/-- Release builds, instead of the overflows in `C30_binary_defect`: the end bound `Excluded(0)` is treated like no end
bound, and the start bound `Excluded(usize::MAX)` like no start bound. So the empty range `0..0` returns the
position of the smallest element of the whole vector. The empty range before the last element panics in release
builds as well. -/
theorem C30_binary_release_defect (hd : Profile.debug = false) {data : List Word} (hlen : data.length < 2 ^ 32)
    (hn : data ≠ []) :
    ∃ s, BinRmq.fromVec data = .ok s ∧
      (∀ a, s.rangeMinWithRange a (.excluded 0) = s.rangeMinWithRange a .unbounded) ∧
      (∀ b, s.rangeMinWithRange (.excluded 18446744073709551615) b = s.rangeMinWithRange .unbounded b) ∧
      (2 ≤ data.length → s.rangeMinWithRange (.included (data.length - 1)) (.excluded (data.length - 1)) = .error .oob) := by
  have hl := List.length_pos_iff.mpr hn
  obtain ⟨s, s1, s2⟩ := BinRmq.fromVec_ok hlen
  refine ⟨s, s1, fun a => ?_, fun b => ?_, fun h2 => ?_⟩
  · unfold BinRmq.rangeMinWithRange
    rw [s2.data_eq, endBound_zero hd hl (by omega)]
  · unfold BinRmq.rangeMinWithRange
    rw [s2.data_eq, startBound_max hd hl]
  · have hc := s2.cols.1
    unfold BinRmq.rangeMinWithRange startBound endBound
    rw [s2.data_eq]
    simp only [pure_eq_ok, ok_bind]
    rw [subR_of_le (by omega : 1 ≤ data.length)]
    simp only [pure_eq_ok, ok_bind]
    rw [subR_of_le (by omega : 1 ≤ data.length - 1)]
    simp only [pure_eq_ok, ok_bind]
    unfold BinRmq.rangeMin
    rw [subR_release hd (by omega) (by omega)]
    simp only [ok_bind, s2.data_eq]
    rw [show 2 ^ 64 + min (data.length - 1 - 1) (data.length - 1) - min (data.length - 1) (data.length - 1) =
      18446744073709551615 by omega, show Nat.log2 18446744073709551615 = 63 from by decide +kernel]
    unfold BinRmq.cell
    have hrl : log2Ceil data.length ≤ 32 := by
      apply Classical.byContradiction
      intro hc
      have := lt_of_lt_log2Ceil (n := data.length) (k := 32) (by omega)
      omega
    rw [idx_of_ge]
    · rfl
    · rw [hc, show min (data.length - 1) (data.length - 1) = data.length - 1 by omega]
      have : data.length * (log2Ceil data.length + 1) =
          (data.length - 1) * (log2Ceil data.length + 1) + (log2Ceil data.length + 1) := by
        rw [← Nat.succ_mul]; congr 1; omega
      omega

example (hd : Profile.debug = false) := C30_binary_release_defect hd (data := [4#64, 10#64, 3#64]) (by decide) (by decide)

/-- The same for `FastRmq`, instead of the overflows in `C30_fast_defect`. -/
theorem C30_fast_release_defect (hd : Profile.debug = false) {data : List Word} (hlen : data.length ≤ 2 ^ 39 - 128)
    (hn : data ≠ []) :
    ∃ s, FastRmq.fromVec data = .ok s ∧
      (∀ a, s.rangeMinWithRange a (.excluded 0) = s.rangeMinWithRange a .unbounded) ∧
      (∀ b, s.rangeMinWithRange (.excluded 18446744073709551615) b = s.rangeMinWithRange .unbounded b) := by
  have hl := List.length_pos_iff.mpr hn
  obtain ⟨s, s1, s2⟩ := FastRmq.fromVec_ok hlen
  refine ⟨s, s1, fun a => ?_, fun b => ?_⟩
  · unfold FastRmq.rangeMinWithRange
    rw [s2.data_eq, endBound_zero hd hl (by omega)]
  · unfold FastRmq.rangeMinWithRange
    rw [s2.data_eq, startBound_max hd hl]

/-- the smallest element of a vector, reported for the empty range `0..0` -/
example (hd : Profile.debug = false) : (do
    let s ← BinRmq.fromVec [4#64, 10#64, 3#64, 11#64]
    s.rangeMinWithRange (.included 0) (.excluded 0)) = .ok 2 := by decide +revert +kernel

/-! ## Wavelet matrices -/

/-- Release builds, instead of `C27_unchecked_defect`: the distance to the first position wraps around, and the search
that follows accesses the upper vector out of bounds. -/
theorem C27_unchecked_release_defect (hd : Profile.debug = false) :
    (do
      let s ← Sparse.new ceilLog2 [10#64, 17#64, 40#64] 50#64
      s.isSetUnchecked 9#64) = .error .oob := by
  decide +revert +kernel

/-- Release builds, instead of `C21_unsorted_panics`: from a slice that is not sorted, a vector with other elements may
be built (as documented), or the construction may access the upper vector out of bounds. -/
theorem C21_unsorted_release (hd : Profile.debug = false) :
    (do
      let ef ← EF.fromSlice ceilLog2 [1#64, 3#64, 2#64]
      let a ← ef.get 0
      let b ← ef.get 1
      let c ← ef.get 2
      pure [a, b, c]) = .ok [some 1#64, some 7#64, some 6#64] ∧
    (do
      let ef ← EF.fromSlice ceilLog2 [5#64, 3#64, 9#64]
      pure ef.len) = .error .oob := by
  exact ⟨by decide +revert +kernel, by decide +revert +kernel⟩

/-- Release builds, instead of `C34_overflow_defect`: the sum of offset and rank is reduced modulo 2^64. In
`[0, 1, 1, 1, 0]`, the occurrence of 1 with rank 2^64 - 1 from position 3 on is said to be at position 2. -/
theorem C34_release_defect (hd : Profile.debug = false) :
    (do
      let m ← WM.fromSlice [0#64, 1#64, 1#64, 1#64, 0#64] 2
      m.selectOffsetU64 3 (2 ^ 64 - 1) 1#64) = .ok (some 2) := by
  decide +revert +kernel

/-- Release builds, instead of `C63_wide_quantile_defect`: elements of more than 64 bits are truncated, as documented.
The other order statistics call this one. -/
theorem C63_wide_quantile_release (hd : Profile.debug = false) {m : WM} {k : Nat} {vals : List Nat} (h : WM.Built m k vals)
    {s e j x : Nat} (he : e ≤ vals.length) (hx : (sorted (between vals s e))[j]? = some x) :
    ReturnsU64 (m.quantileU64Unchecked s e j) (x % 2 ^ 64) := by
  have hs := WM.built_stores h
  have hj : j < e - s := by
    have := WM.lt_of_getElem? hx
    rwa [WM.sorted_length, WM.between_length he] at this
  have hseg := WM.Seg.of_take (show s ≤ e by omega) he
  have hf : WM.Steps (fun _ (t : Word) p => t = BitVec.ofNat 64 p) k
      (fun _ b t => if b then pure ((t <<< 1) ||| 1#64) else pure (t <<< 1)) := by
    intro l t p b _ ht
    have := WM.push_mod b ht
    cases b
    · refine ⟨_, rfl, ?_⟩
      have e : (t <<< 1) ||| b2w false = t <<< 1 := by simp [b2w]
      rw [e] at this; exact this
    · exact ⟨_, rfl, this⟩
  obtain ⟨t, y, t1, t2, t3⟩ := WM.quantLoop_eq hf m.data vals 0 s e j 0 _ 0#64 hs.good
    (by rw [hs.bits]; rfl) hseg (by rw [hseg.length]; exact hj) rfl
  rw [WM.sorted_getElem? (B := between vals s e) t3] at hx; injection hx with hx; subst hx
  refine ⟨t, ?_, by rw [t2]; simp⟩
  unfold WM.quantileU64Unchecked WM.partialQuantileU64
  rw [dassertR_release hd, ok_bind, dassertR_release hd, ok_bind, dassertR_release hd, ok_bind]
  exact t1

example (hd : Profile.debug = false) : ∃ m, WM.fromSlice [5#64, 1#64, 7#64] 3 = .ok m ∧
    ReturnsU64 (m.quantileU64Unchecked 0 3 1) 5 := by
  obtain ⟨m, m1, m2⟩ := C31_from_slice (k := 3) (by omega) (by omega) [5#64, 1#64, 7#64]
  exact ⟨m, m1, C63_wide_quantile_release hd m2 (s := 0) (e := 3) (j := 1) (x := 5) (by decide) (by simp [sorted, between, List.mergeSort, List.MergeSort.Internal.splitInTwo])⟩

/-! ## Trees -/

/-- Release builds, instead of `C50_empty_defect` and `C39_empty_defect`: the searches in the empty tree return `None`. -/
theorem C50_empty_release (hd : Profile.debug = false) {bs : Nat} (hbs : 0 < bs) (k : Lookup.Variant) :
    ∃ t, BpTree.fromBitVector bs BV.new = .ok t ∧
      (∀ i rel, i < 2 ^ 63 → t.fwdSearch bs k i rel = .ok none) ∧
      (∀ level, level ≠ 0#64 → t.levelLeftmost bs k level = .ok none) ∧
      (∀ level, t.levelRightmost bs k level = .ok none) := by
  obtain ⟨rs, g1, g2, g3, g4⟩ := fromBitVec_inv (v := BV.new) (by decide)
  have hlen : rs.len = 0 := g4
  have ht : BpTree.fromBitVector bs BV.new = .ok ⟨rs, ⟨[]⟩⟩ := by
    unfold BpTree.fromBitVector MMT.excessTree
    rw [if_pos (show BV.new.isEmpty = true from rfl), pure_eq_ok, ok_bind, g1, ok_bind]; rfl
  have hf : ∀ i rel, i < 2 ^ 63 → (BpTree.mk rs ⟨[]⟩).fwdSearch bs k i rel = .ok none := by
    intro i rel hi
    have hm : (MMT.mk []).fwdSearch ((i + 1) / bs) rel 1 = .ok none := by
      unfold MMT.fwdSearch MMT.firstLeaf
      rw [dassertR_release hd]
      rfl
    have hb : (BpTree.mk rs ⟨[]⟩).fwdBlock bs k i ((i + 1) / bs) rel = .ok (.miss rel) := by
      unfold BpTree.fwdBlock
      simp only [hlen, Nat.min_zero, Nat.zero_div, Nat.zero_mul, Nat.max_self, Nat.zero_sub]
      have : BpTree.steps 0 0 k.size = 0 := by cases k <;> rfl
      rw [this]
      rfl
    unfold BpTree.fwdSearch
    simp only
    rw [hlen, subR_release hd (by omega) (by omega), ok_bind, if_neg (by omega), if_neg (by omega), hb, ok_bind]
    simp only [List.length_nil, Nat.zero_add]
    rw [hm]; rfl
  refine ⟨_, ht, hf, fun level hlev => ?_, fun level => ?_⟩
  · unfold BpTree.levelLeftmost
    rw [if_neg hlev]; exact hf _ _ (by omega)
  · unfold BpTree.levelRightmost BpTree.bwdSearch
    rw [BpTree.size_eq (v := BV.new) ⟨⟨by decide, g3, g4⟩, g2⟩, ok_bind,
      show BV.new.bits.count true = 0 from rfl, subR_release hd (by omega) (by omega), ok_bind,
      if_pos (by show _ ≥ rs.len; rw [hlen]; omega)]
    rfl

example (hd : Profile.debug = false) := C50_empty_release hd (bs := 512) (by decide) .u8

/-- Release builds, instead of `C50_level_rightmost_defect`: `None` on sequences without opening parenthesis. -/
theorem C50_level_rightmost_release (hd : Profile.debug = false) {v : BV} (hw : v.WF) (hn : true ∉ v.bits) {bs : Nat}
    (hbs : 0 < bs) (hl : v.len ≤ 9223372036854775807) :
    ∃ t, BpTree.fromBitVector bs v = .ok t ∧ ∀ k level, t.levelRightmost bs k level = .ok none := by
  obtain ⟨t, h1, h2, -⟩ := BpTree.fromBitVector_total hw hbs hl
  refine ⟨t, h1, fun k level => ?_⟩
  unfold BpTree.levelRightmost BpTree.bwdSearch
  rw [BpTree.size_eq h2, List.count_eq_zero.mpr hn, ok_bind, subR_release hd (by omega) (by omega), ok_bind,
    if_pos (by rw [h2.vec.2.2]; omega)]
  rfl

example (hd : Profile.debug = false) := C50_level_rightmost_release hd (v := BV.fromZeros 70) (by decide) (by decide)
  (bs := 512) (by decide) (by decide)

/-- Release builds, instead of `C50_excess_defect`: beyond the sequence, `excess` returns the total excess, as
documented. -/
theorem C50_excess_release (hd : Profile.debug = false) {v : BV} (hw : v.WF) {bs : Nat} (hbs : 0 < bs)
    (hl : v.len ≤ 9223372036854775806) :
    ∃ t, BpTree.fromBitVector bs v = .ok t ∧ ∀ i, v.len ≤ i → i < 2 ^ 64 - 1 → t.excess i = .ok (Spec.excess v.bits) := by
  obtain ⟨t, h1, h2, -⟩ := BpTree.fromBitVector_total hw hbs (by omega)
  refine ⟨t, h1, fun i hi hi2 => ?_⟩
  unfold BpTree.excess
  rw [dassertR_release hd, ok_bind, addU_of_lt (by omega), ok_bind, h2.rank, ok_bind, h2.rank, ok_bind]
  have hb := excess_natAbs_le v.bits
  rw [BV.length_bits] at hb
  have e := BpTree.rank_sub v.bits (i + 1)
  rw [List.take_of_length_le (by rw [BV.length_bits]; omega)] at e
  unfold subI
  rw [Bool.not_false, Bool.not_true, e, if_pos (by omega)]

example : (BV.fromOnes 70).WF ∧ 0 < 512 ∧ (BV.fromOnes 70).len ≤ 9223372036854775806 ∧ (BV.fromOnes 70).len ≤ 70 := by
  decide

/-- Defect of release builds, the remaining index: `excess(usize::MAX)` returns 0 for every sequence, whatever its
total excess is, because `index + 1` wraps around. -/
theorem C50_excess_max_defect (hd : Profile.debug = false) {v : BV} (hw : v.WF) {bs : Nat} (hbs : 0 < bs)
    (hl : v.len ≤ 9223372036854775806) :
    ∃ t, BpTree.fromBitVector bs v = .ok t ∧ t.excess (2 ^ 64 - 1) = .ok 0 := by
  obtain ⟨t, h1, h2, -⟩ := BpTree.fromBitVector_total hw hbs (by omega)
  refine ⟨t, h1, ?_⟩
  unfold BpTree.excess
  rw [dassertR_release hd, ok_bind, addU_release hd (by omega) (by omega), ok_bind, h2.rank, ok_bind, h2.rank, ok_bind]
  rfl

example : (BV.fromOnes 70).WF ∧ Spec.excess (BV.fromOnes 70).bits = 70 := by decide

end Vers
