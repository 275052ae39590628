import Verif.Proofs.WaveletUnchecked
import Verif.Props.Wavelet
import Verif.Props.EliasFano
import Verif.Props.RsVec

/-!
# Property C63: the queries without bounds checks

Within their documented domain the `_unchecked` queries answer what the specification says. For the bit
vector see also C03 and C05, for the Elias-Fano vector C21, for the sparse vector C27.
-/

set_option linter.unusedSimpArgs false

namespace Vers

variable [Profile]
open Spec WM

/-! ## The wavelet matrix -/

/-- The unchecked ranks count the occurrences of the symbol. Of a symbol with more than `k` bits the
remaining bits are ignored. -/
theorem C63_rank {m : WM} {k : Nat} {vals : List Nat} (h : Built m k vals) {sym : BV} (hw : sym.WF) (hl : k ≤ sym.len) :
    (∀ s e, s ≤ e → e ≤ vals.length →
      m.rankRangeUnchecked s e sym = .ok ((between vals s e).count (bitsToNat (sym.bits.take k))) ∧
      m.rankOffsetUnchecked s e sym = .ok ((between vals s e).count (bitsToNat (sym.bits.take k)))) ∧
    (∀ i, i ≤ vals.length → m.rankUnchecked i sym = .ok ((vals.take i).count (bitsToNat (sym.bits.take k)))) := by
  have hs := built_stores h
  have key : ∀ s e, s ≤ e → e ≤ vals.length →
      m.rankRangeUnchecked s e sym = .ok ((between vals s e).count (bitsToNat (sym.bits.take k))) := by
    intro s e h1 h2
    unfold rankRangeUnchecked
    rw [hs.bp]
    exact rankGen_eq hs (reads_BV_wide hw hl) h1 h2
  refine ⟨fun s e h1 h2 => ⟨key s e h1 h2, key s e h1 h2⟩, fun i hi => ?_⟩
  unfold rankUnchecked
  rw [key 0 i (by omega) hi, between_zero]

example : ∃ m, fromSlice [5#64, 1#64, 7#64, 1#64, 4#64] 3 = .ok m ∧
    m.rankRangeUnchecked 1 4 ⟨[1#64], 3⟩ = .ok 2 := by
  obtain ⟨m, m1, m2⟩ := C31_from_slice (k := 3) (by omega) (by omega) [5#64, 1#64, 7#64, 1#64, 4#64]
  have := (C63_rank m2 (sym := ⟨[1#64], 3⟩) (by decide) (by decide)).1 1 4 (by decide) (by decide)
  exact ⟨m, m1, this.1⟩

/-- The same for symbols given as `u64`. -/
theorem C63_rank_u64 {m : WM} {k : Nat} {vals : List Nat} (h : Built m k vals) (hk : k ≤ 64) (sym : Word) :
    (∀ s e, s ≤ e → e ≤ vals.length →
      m.rankRangeU64Unchecked s e sym = .ok ((between vals s e).count (sym.toNat % 2 ^ k)) ∧
      m.rankOffsetU64Unchecked s e sym = .ok ((between vals s e).count (sym.toNat % 2 ^ k))) ∧
    (∀ i, i ≤ vals.length → m.rankU64Unchecked i sym = .ok ((vals.take i).count (sym.toNat % 2 ^ k))) := by
  have hs := built_stores h
  have key : ∀ s e, s ≤ e → e ≤ vals.length →
      m.rankRangeU64Unchecked s e sym = .ok ((between vals s e).count (sym.toNat % 2 ^ k)) := by
    intro s e h1 h2
    unfold rankRangeU64Unchecked
    rw [hs.bp]
    exact rankGen_eq hs (reads_U64 sym hk) h1 h2
  refine ⟨fun s e h1 h2 => ⟨key s e h1 h2, key s e h1 h2⟩, fun i hi => ?_⟩
  unfold rankU64Unchecked
  rw [key 0 i (by omega) hi, between_zero]

example : ∃ m, fromSlice [5#64, 1#64, 7#64, 1#64, 4#64] 3 = .ok m ∧ m.rankU64Unchecked 4 1#64 = .ok 2 := by
  obtain ⟨m, m1, m2⟩ := C31_from_slice (k := 3) (by omega) (by omega) [5#64, 1#64, 7#64, 1#64, 4#64]
  exact ⟨m, m1, (C63_rank_u64 m2 (by decide) 1#64).2 4 (by decide)⟩

/-- The call answers (without panic) the position of the occurrence of `c` that is preceded by exactly `n`
occurrences at or after position `o`, or the length of the sequence if at most `n` elements from `o` on are
`c`. -/
def SelectsNthOrLen (vals : List Nat) (c o n : Nat) (r : R Nat) : Prop :=
  (∃ p, r = .ok p ∧ IsNth vals c o n p) ∨ (r = .ok vals.length ∧ (vals.drop o).count c ≤ n)

/-- Partial: the rank plus the length of the sequence is below 2^64 (otherwise see `C34_overflow_defect`).
The unchecked select queries answer the position of the occurrence, or the length of the sequence. -/
theorem C63_select_partial {m : WM} {k : Nat} {vals : List Nat} (h : Built m k vals) (n : Nat)
    (hn : vals.length + n < 2 ^ 64) :
    (∀ sym : BV, sym.WF → k ≤ sym.len →
      SelectsNthOrLen vals (bitsToNat (sym.bits.take k)) 0 n (m.selectUnchecked n sym) ∧
      ∀ o, o ≤ vals.length →
        SelectsNthOrLen vals (bitsToNat (sym.bits.take k)) o n (m.selectOffsetUnchecked o n sym)) ∧
    (k ≤ 64 → ∀ sym : Word, SelectsNthOrLen vals (sym.toNat % 2 ^ k) 0 n (m.selectU64Unchecked n sym) ∧
      ∀ o, o ≤ vals.length → SelectsNthOrLen vals (sym.toNat % 2 ^ k) o n (m.selectOffsetU64Unchecked o n sym)) := by
  have hs := built_stores h
  refine ⟨fun sym hw hl => ?_, fun hk sym => ?_⟩
  · have key : ∀ o, o ≤ vals.length →
        SelectsNthOrLen vals (bitsToNat (sym.bits.take k)) o n (m.selectOffsetUnchecked o n sym) := by
      intro o ho
      unfold selectOffsetUnchecked
      rw [hs.bp]
      exact selectGen_unchecked hs (reads_BV_wide hw hl) n ho hn
    exact ⟨key 0 (by omega), key⟩
  · have key : ∀ o, o ≤ vals.length →
        SelectsNthOrLen vals (sym.toNat % 2 ^ k) o n (m.selectOffsetU64Unchecked o n sym) := by
      intro o ho
      unfold selectOffsetU64Unchecked
      rw [hs.bp]
      exact selectGen_unchecked hs (reads_U64 sym hk) n ho hn
    exact ⟨key 0 (by omega), key⟩

/-- The call returns (no panic) the value `x` in a bit vector of `k` bits. -/
def ReturnsBV (k : Nat) (r : R BV) (x : Nat) : Prop := ∃ v, r = .ok v ∧ v.WF ∧ v.bits = natToBits k x

/-- The call returns (no panic) the value `x` as a `u64`. -/
def ReturnsU64 (r : R Word) (x : Nat) : Prop := ∃ w, r = .ok w ∧ w.toNat = x

/-- The unchecked access returns the element. If the elements have more than 64 bits, the `u64` version
returns the lowest 64 bits. -/
theorem C63_access {m : WM} {k : Nat} {vals : List Nat} (h : Built m k vals) {i x : Nat} (hx : vals[i]? = some x) :
    ReturnsBV k (m.getValueUnchecked i) x ∧ ReturnsU64 (m.getU64Unchecked i) (x % 2 ^ 64) := by
  have hs := built_stores h
  obtain ⟨t, t1, t2⟩ := getValueUnchecked_eq hs hx
  exact ⟨⟨t, t1, t2.1, holdsBV_end t2⟩, ⟨_, getU64Unchecked_mod hs hx, by simp⟩⟩

example : ∃ m, fromSlice [5#64, 1#64, 7#64, 1#64, 4#64] 3 = .ok m ∧ ReturnsU64 (m.getU64Unchecked 2) 7 := by
  obtain ⟨m, m1, m2⟩ := C31_from_slice (k := 3) (by omega) (by omega) [5#64, 1#64, 7#64, 1#64, 4#64]
  exact ⟨m, m1, (C63_access m2 (i := 2) (x := 7) (by decide)).2⟩

theorem quantile_returns {m : WM} {k : Nat} {vals : List Nat} (h : Built m k vals) {s e j x : Nat}
    (he : e ≤ vals.length) (hx : (sorted (between vals s e))[j]? = some x) :
    ReturnsBV k (m.quantileUnchecked s e j) x ∧ (k ≤ 64 → ReturnsU64 (m.quantileU64Unchecked s e j) x) := by
  have hs := built_stores h
  have hj : j < e - s := by
    have := lt_of_getElem? hx
    rwa [sorted_length, between_length he] at this
  refine ⟨?_, fun hk => ?_⟩
  · obtain ⟨t, y, h1, h2, h3⟩ := quantile_of hs (show s ≤ e by omega) he hj
    rw [sorted_getElem? h3] at hx; injection hx with hx; subst hx
    exact ⟨t, h1, h2.1, holdsBV_end h2⟩
  · obtain ⟨t, y, h1, h2, h3⟩ := quantileU64_of hs hk (show s ≤ e by omega) he hj
    rw [sorted_getElem? h3] at hx; injection hx with hx; subst hx
    exact ⟨t, h1, h2.1⟩

/-- The unchecked order statistics: the `j`-th smallest element of a range, its minimum, maximum and lower
median, and the `i`-th element of the sorted sequence. -/
theorem C63_order {m : WM} {k : Nat} {vals : List Nat} (h : Built m k vals) {s e : Nat} (he : e ≤ vals.length) :
    (∀ j x, (sorted (between vals s e))[j]? = some x →
      ReturnsBV k (m.quantileUnchecked s e j) x ∧ (k ≤ 64 → ReturnsU64 (m.quantileU64Unchecked s e j) x)) ∧
    (∀ x, (between vals s e).min? = some x →
      ReturnsBV k (m.rangeMinUnchecked s e) x ∧ (k ≤ 64 → ReturnsU64 (m.rangeMinU64Unchecked s e) x)) ∧
    (∀ x, (between vals s e).max? = some x →
      ReturnsBV k (m.rangeMaxUnchecked s e) x ∧ (k ≤ 64 → ReturnsU64 (m.rangeMaxU64Unchecked s e) x)) ∧
    (∀ x, (sorted (between vals s e))[(e - s - 1) / 2]? = some x →
      ReturnsBV k (m.rangeMedianUnchecked s e) x ∧ (k ≤ 64 → ReturnsU64 (m.rangeMedianU64Unchecked s e) x)) ∧
    (∀ i x, (sorted vals)[i]? = some x →
      ReturnsBV k (m.getSortedUnchecked i) x ∧ (k ≤ 64 → ReturnsU64 (m.getSortedU64Unchecked i) x)) := by
  have hs := built_stores h
  refine ⟨fun j x hx => quantile_returns h he hx, fun x hx => ?_, fun x hx => ?_, fun x hx => ?_, fun i x hx => ?_⟩
  · rw [← sorted_first] at hx
    exact quantile_returns h he hx
  · have hl := sorted_last (between vals s e)
    rw [between_length he] at hl
    rw [← hl] at hx
    have hlt := lt_of_getElem? hx
    rw [sorted_length, between_length he] at hlt
    have e1 : maxRank s e = .ok (e - s - 1) := by
      unfold maxRank; rw [subR_of_le (by omega), ok_bind, subR_of_le (by omega)]
    unfold rangeMaxUnchecked rangeMaxU64Unchecked
    rw [e1, ok_bind, ok_bind]
    exact quantile_returns h he hx
  · have hlt := lt_of_getElem? hx
    rw [sorted_length, between_length he] at hlt
    have e1 : medianRank s e = .ok ((e - s - 1) / 2) := by
      unfold medianRank
      rw [subR_of_le (by omega), ok_bind, subR_of_le (by omega), ok_bind, show e - 1 - s = e - s - 1 by omega]; rfl
    unfold rangeMedianUnchecked rangeMedianU64Unchecked
    rw [e1, ok_bind, ok_bind]
    exact quantile_returns h he hx
  · have eb : between vals 0 vals.length = vals := by simp [between]
    unfold getSortedUnchecked getSortedU64Unchecked
    rw [hs.len]
    exact quantile_returns h (Nat.le_refl _) (by rw [eb]; exact hx)

example : ∃ m, fromSlice [5#64, 1#64, 7#64, 1#64, 4#64] 3 = .ok m ∧ ReturnsU64 (m.rangeMaxU64Unchecked 1 4) 7 := by
  obtain ⟨m, m1, m2⟩ := C31_from_slice (k := 3) (by omega) (by omega) [5#64, 1#64, 7#64, 1#64, 4#64]
  exact ⟨m, m1, ((C63_order m2 (s := 1) (e := 4) (by decide)).2.2.1 7 (by decide)).2 (by decide)⟩

/-- Deviation: the documentation of the unchecked `u64` order statistics promises truncated values for
elements of more than 64 bits, but a debug assertion rejects every such call. -/
theorem C63_wide_quantile_defect (hd : Profile.debug = true) {m : WM} {k : Nat} {vals : List Nat} (h : Built m k vals) (hk : 64 < k) (s e j : Nat) :
    m.quantileU64Unchecked s e j = .error .assertion := by
  have hs := built_stores h
  unfold quantileU64Unchecked partialQuantileU64
  rw [hs.bp, dassertR_false hd (by omega)]
  rfl

/-- In `[5, 1, 7, 1, 4]` the symbol 1 occurs twice; there is no third occurrence. The last query is for a
symbol with an additional bit. -/
example : ∃ m, fromSlice [5#64, 1#64, 7#64, 1#64, 4#64] 3 = .ok m ∧ m.rankU64Unchecked 5 1#64 = .ok 2 ∧
    m.selectU64Unchecked 2 1#64 = .ok 5 ∧ ReturnsU64 (m.rangeMaxU64Unchecked 0 3) 7 ∧
    m.rankUnchecked 5 ⟨[9#64], 4⟩ = .ok 2 := by
  obtain ⟨m, m1, m2⟩ := C31_from_slice (k := 3) (by omega) (by omega) [5#64, 1#64, 7#64, 1#64, 4#64]
  refine ⟨m, m1, ?_, ?_, ?_, ?_⟩
  · exact (C63_rank_u64 m2 (by omega) 1#64).2 5 (by decide)
  · rcases ((C63_select_partial m2 2 (by decide)).2 (by omega) 1#64).1 with ⟨p, h1, h2⟩ | ⟨h1, _⟩
    · exact absurd (isNth_lt h2) (by decide +kernel)
    · exact h1
  · exact ((C63_order m2 (s := 0) (e := 3) (by decide)).2.2.1 7 (by decide)).2 (by omega)
  · exact (C63_rank m2 (sym := ⟨[9#64], 4⟩) (by decide) (by decide)).2 5 (by decide)

/-! ## The other structures -/

omit [Profile] in
theorem some_of_bind {α : Type} {r : R α} {x : α} (h : (do let v ← r; pure (some v)) = .ok (some x)) : r = .ok x := by
  obtain ⟨v, h1, h2⟩ := bind_eq_ok.mp h
  rw [h1]; injection h2 with h2; injection h2 with h2; rw [h2]

/-- Bit vector and rank/select vector: single bits and groups of bits. -/
theorem C63_bits {v : BV} (h : v.WF) :
    ∃ rs, RsVec.fromBitVec v = .ok rs ∧
      (∀ i b, v.bits[i]? = some b → v.getUnchecked i = .ok (b2w b) ∧ v.isBitSetUnchecked i = .ok b ∧
        rs.getUnchecked i = .ok (b2w b)) ∧
      ∀ i n, 1 ≤ n → n ≤ 64 → i + n ≤ v.len →
        ReturnsU64 (v.getBitsUnchecked i n) (bitsToNat ((v.bits.drop i).take n)) ∧
        ReturnsU64 (rs.getBitsUnchecked i n) (bitsToNat ((v.bits.drop i).take n)) := by
  obtain ⟨rs, h1, h2, h3, h4⟩ := fromBitVec_inv h
  refine ⟨rs, h1, fun i b hb => ?_, fun i n hn hn' hi => ?_⟩
  · have hi : i < v.len := by
      obtain ⟨hb', _⟩ := List.getElem?_eq_some_iff.mp hb; rwa [BV.length_bits] at hb'
    have e1 := BV.isBitSet_eq h i
    have e2 := BV.get_eq h i
    rw [hb] at e1 e2
    unfold BV.isBitSet at e1
    unfold BV.get at e2
    rw [if_neg (by omega)] at e1 e2
    have e3 := some_of_bind e2
    refine ⟨e3, some_of_bind e1, ?_⟩
    unfold RsVec.getUnchecked
    unfold BV.getUnchecked at e3
    rw [h3]; exact e3
  · obtain ⟨w, w1, w2⟩ := BV.getBitsRaw_toNat (d := v.data) (pos := i) (n := n) (by omega)
      (by unfold BV.WF at h; omega) (by unfold BV.WF at h; omega)
    refine ⟨⟨w, w1, ?_⟩, ⟨w, by unfold RsVec.getBitsUnchecked; rw [h3]; exact w1, ?_⟩⟩ <;>
      rw [w2, BV.map_lbit_eq_drop_take _ _ _ hi]

/-- Elias-Fano: if the neighbour exists, the unchecked query finds it. -/
theorem C63_elias_fano {fl : Nat → Nat} (hfl : LogLike fl) {data : List Word} (hs : Sorted data)
    (hl : data.length < 2 ^ 60) :
    ∃ ef, EF.fromSlice fl data = .ok ef ∧
      (∀ x, (∃ y ∈ data, y ≤ x) → ∃ p, ef.predecessorUnchecked x = .ok p ∧ IsPredecessor data x (some p)) ∧
      (∀ x, (∃ y ∈ data, x ≤ y) → ∃ s, ef.successorUnchecked x = .ok s ∧ IsSuccessor data x (some s)) := by
  obtain ⟨ef, e1, e2⟩ := C22_predecessor hfl hs hl
  obtain ⟨ef', e1', e3⟩ := C23_successor hfl hs hl
  rw [e1] at e1'; injection e1' with e1'; subst e1'
  refine ⟨ef, e1, fun x ⟨y, y1, y2⟩ => ?_, fun x ⟨y, y1, y2⟩ => ?_⟩
  · obtain ⟨o, o1, o2⟩ := e2 x
    cases o with
    | none => exact absurd y2 (by have := o2 y y1; rw [BitVec.lt_def] at this; rw [BitVec.le_def]; omega)
    | some p =>
      unfold EF.predecessor at o1
      split at o1
      · simp at o1
      · exact ⟨p, some_of_bind o1, o2⟩
  · obtain ⟨o, o1, o2⟩ := e3 x
    cases o with
    | none => exact absurd y2 (by have := o2 y y1; rw [BitVec.lt_def] at this; rw [BitVec.le_def]; omega)
    | some p =>
      unfold EF.successor at o1
      split at o1
      · simp at o1
      · exact ⟨p, some_of_bind o1, o2⟩

example : ∃ y ∈ efExample, y ≤ 999#64 := ⟨9#64, by decide, by decide⟩

end Vers
