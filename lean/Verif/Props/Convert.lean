import Verif.Model.Convert
import Verif.Props.BitVec
import Verif.Props.RsVec
import Verif.Props.Sparse
import Verif.Props.Rmq
import Verif.Props.BpTree

/-!
# C64 and C65: conversions, and agreement of the structures with the same interface
-/

set_option linter.unusedSimpArgs false

namespace Vers

variable [Profile]
open Spec

/-! ## C64 conversions -/

omit [Profile] in
/-- The variants of `append_bit` for narrower integers append the least significant bit. -/
theorem C64_append_bit {v : BV} (h : v.WF) (a : BitVec 8) (b : BitVec 16) (c : BitVec 32) :
    Refines (v.appendBitU8 a) (v.bits ++ [decide (a.toNat % 2 = 1)]) ∧
    Refines (v.appendBitU16 b) (v.bits ++ [decide (b.toNat % 2 = 1)]) ∧
    Refines (v.appendBitU32 c) (v.bits ++ [decide (c.toNat % 2 = 1)]) := by
  have key : ∀ {w : Nat} (x : BitVec w), w ≤ 64 → (x.setWidth 64).toNat = x.toNat := by
    intro w x hw
    rw [BitVec.toNat_setWidth]
    exact Nat.mod_eq_of_lt (Nat.lt_of_lt_of_le x.isLt (Nat.pow_le_pow_right (by decide) hw))
  refine ⟨?_, ?_, ?_⟩
  · have := C02_append_bit h (a.setWidth 64); rwa [key a (by decide)] at this
  · have := C02_append_bit h (b.setWidth 64); rwa [key b (by decide)] at this
  · have := C02_append_bit h (c.setWidth 64); rwa [key c (by decide)] at this

example := C64_append_bit (v := ⟨[0xF000000000000005#64], 3⟩) (by decide) 254#8 3#16 1#32

omit [Profile] in
/-- The limbs of a vector hold its bits in order, lowest bit first, in as many limbs as are needed. Building a
vector from them and dropping the superfluous bits gives back the bits. -/
theorem C64_limbs {v : BV} (h : v.WF) :
    v.iterLimbs.length = (v.len + 63) / 64 ∧
    (∀ i, i < v.len → v.bits[i]? = v.iterLimbs[i / 64]?.map fun w => w.toNat.testBit (i % 64)) ∧
    ((BV.ofU64s v.iterLimbs).dropLast (64 * v.iterLimbs.length - v.len)).bits = v.bits := by
  refine ⟨h, fun i hi => ?_, ?_⟩
  · have hd : i / 64 < v.data.length := by rw [h]; omega
    rw [BV.bits_getElem?, if_pos hi]
    simp only [BV.iterLimbs, lbit, List.getElem?_eq_getElem hd]
    simp [BitVec.testBit_toNat]
  · rw [BV.dropLast_bits]
    have hl : (BV.ofU64s v.iterLimbs).len - (64 * v.iterLimbs.length - v.len) = v.len := by
      have h' : v.data.length = (v.len + 63) / 64 := h
      simp only [BV.ofU64s, BV.fromLimbs, BV.iterLimbs]
      omega
    rw [hl]
    unfold BV.bits
    rw [← List.map_take, List.take_range]
    simp only [BV.ofU64s, BV.fromLimbs, BV.iterLimbs]
    rw [Nat.min_eq_left (by have h' : v.data.length = (v.len + 63) / 64 := h; omega)]

example := C64_limbs (v := (BV.fromOnes 70).dropLast 3) (by decide)

/-- A bit vector converted to a rank/select vector and back is the same bit vector, and the conversion keeps the
length. -/
theorem C64_rs_vec {v : BV} (h : v.WF) :
    ∃ rs, RsVec.ofBitVec v = .ok rs ∧ BV.ofRsVec rs = v ∧ rs.len = v.len ∧ rs.isEmpty = decide (v.bits = []) := by
  obtain ⟨rs, h1, h2, h3, -⟩ := C12_preserves_bits_partial h
  refine ⟨rs, h1, h3, h2, ?_⟩
  unfold RsVec.isEmpty
  rw [h2, ← BV.length_bits]
  cases v.bits <;> simp

example := C64_rs_vec (v := BV.fromOnes 70) (by decide)

/-- `iter0` iterates over the positions of the zeros and `iter1` over the positions of the ones: the answers to any
sequence of calls that `C19_calls_partial` admits are those of the list of these positions, consumed from both ends. -/
theorem C64_select_iter {v : BV} (h : v.WF) :
    ∃ rs i0 i1, RsVec.ofBitVec v = .ok rs ∧ rs.iter0 = .ok i0 ∧ rs.iter1 = .ok i1 ∧
      (∀ ops, CallsOk (NthBackOk (positions false v.bits)) (positions false v.bits) ops →
        execute (SelIter.step rs true) i0 ops = .ok (iterRun (positions false v.bits) ops)) ∧
      ∀ ops, CallsOk (NthBackOk (positions true v.bits)) (positions true v.bits) ops →
        execute (SelIter.step rs false) i1 ops = .ok (iterRun (positions true v.bits) ops) := by
  obtain ⟨rs, i0, h1, h2, h3⟩ := C19_calls_partial h true
  obtain ⟨rs', i1, g1, g2, g3⟩ := C19_calls_partial h false
  rw [h1] at g1
  cases g1
  exact ⟨rs, i0, i1, h1, h2, g2, h3, g3⟩

example := C64_select_iter (v := (BV.fromOnes 70).dropLast 3) (by decide)

example : CallsOk (NthBackOk [0, 2, 3, 5]) [0, 2, 3, 5] [.nthBack 1, .nth 0, .nthBack 9, .nth 7] := by
  simp [CallsOk, iterStep, NthBackOk]

/-- A bit vector converted to a tree and back is the same bit vector, whether or not its parentheses are balanced,
and the rank/select vector taken out of the tree is the one built from the bit vector. -/
theorem C64_bp_tree {v : BV} (h : v.WF) {bs : Nat} (hbs : 0 < bs) (hl : v.len ≤ 9223372036854775807) :
    ∃ t, BpTree.ofBitVec bs v = .ok t ∧ BV.ofBpTree t = v ∧ RsVec.ofBitVec v = .ok (RsVec.ofBpTree t) := by
  obtain ⟨t, h1, h2, -⟩ := BpTree.fromBitVector_total h hbs hl
  have h3 : RsVec.fromBitVec v = .ok t.vec := by
    have h1' := h1
    unfold BpTree.fromBitVector at h1'
    obtain ⟨m, -, h1'⟩ := bind_eq_ok.mp h1'
    obtain ⟨rs, h4, h1'⟩ := bind_eq_ok.mp h1'
    cases h1'
    exact h4
  obtain ⟨rs, g1, -, g3, -⟩ := C12_preserves_bits_partial h
  rw [h3] at g1
  cases g1
  exact ⟨t, h1, g3, h3⟩

example := C64_bp_tree (v := BV.fromOnes 70) (by decide) (bs := 512) (by decide) (by decide)

/-- The range minimum structures give access to exactly the data they were built from. -/
theorem C64_rmq {data : List Word} :
    (data.length < 2 ^ 32 → ∃ s, BinRmq.ofU64s data = .ok s ∧ s.deref = data) ∧
    (data.length ≤ 2 ^ 39 - 128 →
      ∃ s, FastRmq.ofU64s data = .ok s ∧ s.deref = data ∧ s.len = data.length ∧ s.isEmpty = data.isEmpty) := by
  refine ⟨fun h => ?_, fun h => ?_⟩
  · obtain ⟨s, s1, s2, -⟩ := C28_range_min h
    exact ⟨s, s1, s2⟩
  · obtain ⟨s, s1, s2, -⟩ := C29_range_min_partial h
    exact ⟨s, s1, s2, by simp [FastRmq.len, s2], by simp [FastRmq.isEmpty, s2]⟩

example := (C64_rmq (data := [4#64, 10#64, 3#64])).1 (by decide)

/-- `select` of the Elias-Fano vector is the element of the given rank in the sorted sequence. -/
theorem C64_elias_fano {fl : Nat → Nat} (hfl : LogLike fl) {data : List Word} (hs : Sorted data)
    (hl : data.length < 2 ^ 60) :
    ∃ ef, EF.fromSlice fl data = .ok ef ∧ ef.isEmpty = data.isEmpty ∧ ∀ k, ef.select k = .ok data[k]? := by
  obtain ⟨ef, e1, e2, e3⟩ := C21_get hfl hs hl
  refine ⟨ef, e1, ?_, e3⟩
  unfold EF.isEmpty
  rw [e2]
  cases data <;> simp

example := C64_elias_fano logLike_ceilLog2 (data := [3#64, 7#64, 7#64]) (by simp [Sorted]) (by decide)

/-- A compressed vector is empty if and only if the bit vector it was built from is. -/
theorem C64_sparse_empty {fl : Nat → Nat} (hfl : LogLike fl) {v : BV} (h : v.WF) (hn : v.len < 2 ^ 64)
    (hc : v.bits.count true < 2 ^ 60) :
    ∃ s, Sparse.fromBitVec fl v = .ok s ∧ s.isEmpty = decide (v.bits = []) := by
  obtain ⟨s, s1, s2⟩ := C27_from_bitvec hfl h hn hc
  refine ⟨s, s1, ?_⟩
  have hl := s2.len
  unfold Sparse.isEmpty
  rw [Bool.eq_iff_iff, beq_iff_eq, decide_eq_true_eq, ← List.length_eq_zero_iff, ← hl]
  constructor
  · intro e; rw [e]; rfl
  · intro e; exact BitVec.eq_of_toNat_eq e

example := C64_sparse_empty logLike_ceilLog2 (v := BV.fromOnes 70) (by decide) (by decide) (by decide)

example : (⟨[0xF000000000000005#64], 3⟩ : BV).WF := by decide

example : (⟨[0xF000000000000005#64], 3⟩ : BV).appendBitU8 254#8 = .ok ⟨[0xF000000000000005#64], 4⟩ := by
  decide +kernel

example : (BV.fromOnes 70).iterLimbs = [BitVec.allOnes 64, 63#64] := by decide

example : (do
    let t ← BpTree.ofBitVec 4 exVec
    pure (BV.ofBpTree t)) = .ok exVec := by decide +revert +kernel

/-! ## C65 agreement -/

/-- Let `v` be any bit vector with fewer than `2^60` ones. The compressed vector and the rank/select vector built from
it give the same answers to `get`, `rank0`, `rank1` and `select1` for every argument, in range or not. -/
theorem C65_sparse {fl : Nat → Nat} (hfl : LogLike fl) {v : BV} (h : v.WF) (hn : v.len < 2 ^ 64)
    (hc : v.bits.count true < 2 ^ 60) :
    ∃ rs s, RsVec.fromBitVec v = .ok rs ∧ Sparse.fromBitVec fl v = .ok s ∧ s.len.toNat = rs.len ∧
      (∀ i : Word, s.get i = rs.get i.toNat) ∧
      (∀ i : Word, (BitVec.toNat <$> s.rank1 i) = rs.rank false i.toNat) ∧
      (∀ i : Word, (BitVec.toNat <$> s.rank0 i) = rs.rank true i.toNat) ∧
      (∀ k, (BitVec.toNat <$> s.select1 k) = rs.select false k) := by
  obtain ⟨s, s1, s2⟩ := C27_from_bitvec hfl h hn hc
  obtain ⟨rs, r1, r2, -, r3⟩ := C12_preserves_bits_partial h
  obtain ⟨rs', q1, q2⟩ := C13_rank_partial h
  obtain ⟨rs'', p1, p2⟩ := C14_select_partial h
  rw [r1] at q1 p1
  cases q1; cases p1
  refine ⟨rs, s, r1, s1, by rw [s2.len, r2, BV.length_bits], fun i => ?_, fun i => ?_, fun i => ?_, fun k => ?_⟩
  · rw [s2.get, r3]; rfl
  · obtain ⟨r, e1, e2⟩ := s2.rank1 i
    rw [e1, (q2 i.toNat).2, ← e2]; rfl
  · obtain ⟨r, e1, e2⟩ := s2.rank0 i
    rw [e1, (q2 i.toNat).1, ← e2]; rfl
  · by_cases hk : k < v.bits.count true
    · obtain ⟨p, e1, e2⟩ := s2.select1 k hk
      obtain ⟨q, f1, f2⟩ := (p2 false k).1 hk
      rw [e1, f1, ← C14_select_unique e2 f2]; rfl
    · rw [s2.select1_end k (by omega), (p2 false k).2 (by simpa using hk)]
      show Except.ok s.len.toNat = _
      rw [s2.len, BV.length_bits]

/-- Both range minimum structures over the same data find a minimum of the same value for every query, and the same
position if the elements are distinct. -/
theorem C65_rmq {data : List Word} (hlen : data.length < 2 ^ 32) :
    ∃ b f, BinRmq.fromVec data = .ok b ∧ FastRmq.fromVec data = .ok f ∧
      ∀ i j, i ≤ j → j < data.length → ∃ m m', b.rangeMin i j = .ok m ∧ f.rangeMin i j = .ok m' ∧
        data[m]? = data[m']? ∧ (data.Nodup → m = m') := by
  obtain ⟨b, b1, -, b2⟩ := C28_range_min hlen
  obtain ⟨f, f1, -, f2⟩ := C29_range_min_partial (data := data) (by omega)
  refine ⟨b, f, b1, f1, fun i j hij hj => ?_⟩
  obtain ⟨m, m1, m2, m3, x, m4, m5⟩ := b2 i j hij hj
  obtain ⟨m', n1, n2, n3, y, n4, n5⟩ := f2 i j hij hj
  have hxy : x = y := by
    apply BitVec.eq_of_toNat_eq
    have := m5 m' y n2 n3 n4
    have := n5 m x m2 m3 m4
    omega
  refine ⟨m, m', m1, n1, by rw [m4, n4, hxy], fun hd => ?_⟩
  subst hxy
  obtain ⟨a1, a2⟩ := List.getElem?_eq_some_iff.mp m4
  obtain ⟨c1, c2⟩ := List.getElem?_eq_some_iff.mp n4
  exact (List.getElem_inj hd).mp (a2.trans c2.symm)

example : [4#64, 10#64, 3#64].length < 2 ^ 32 ∧ [4#64, 10#64, 3#64].Nodup := by decide

end Vers
