import Verif.AbsSparse
import Verif.Proofs.Sparse

/-! # Property C27: the sparse vector -/

set_option linter.unusedSimpArgs false

namespace Vers

variable [Profile]
open Spec

namespace Sparse

omit [Profile] in
theorem rank_compl (l : List Bool) (i : Nat) (hi : i ≤ l.length) : rank false l i = i - rank true l i := by
  unfold rank
  have h1 : ∀ m : List Bool, m.count true + m.count false = m.length := by
    intro m
    induction m with
    | nil => rfl
    | cons x m ih => cases x <;> simp <;> omega
  have h := h1 (l.take i)
  rw [List.length_take] at h; omega

omit [Profile] in
theorem rank_of_ge (l : List Bool) (b : Bool) (i : Nat) (hi : l.length ≤ i) : rank b l i = rank b l l.length := by
  unfold rank
  rw [List.take_of_length_le hi, List.take_length]

omit [Profile] in
theorem rank_le (l : List Bool) (b : Bool) (i : Nat) : rank b l i ≤ i := by
  unfold rank
  have := List.count_le_length (a := b) (l := l.take i)
  rw [List.length_take] at this; omega

omit [Profile] in
theorem Enum.positions_eq {data : List Word} {l : List Bool} (h : Enum data l) :
    (positions true l).map (BitVec.ofNat 64) = data := by
  apply List.ext_getElem?
  intro k
  rw [List.getElem?_map]
  by_cases hk : k < data.length
  · rw [positions_getElem? (h.select hk), List.getElem?_eq_getElem hk]
    simp
  · have hl := length_positions true l
    rw [List.getElem?_eq_none (by have := h.length; omega), List.getElem?_eq_none (by omega)]
    rfl

omit [Profile] in
theorem isPredecessor_hit {data : List Word} {x : Word} {o : Option Word} (h : IsPredecessor data x o) :
    isSomeAndEq o x = decide (x ∈ data) := by
  cases o with
  | none =>
    have h : ∀ z ∈ data, x < z := h
    have : ¬ x ∈ data := fun hx => absurd (h x hx) (by rw [BitVec.lt_def]; omega)
    simp [this, isSomeAndEq]
  | some y =>
    obtain ⟨h1, h2, h3⟩ : y ∈ data ∧ y ≤ x ∧ ∀ z ∈ data, z ≤ x → z ≤ y := h
    by_cases hx : x ∈ data
    · have h4 := h3 x hx (by rw [BitVec.le_def]; omega)
      have : y = x := BitVec.eq_of_toNat_eq (by rw [BitVec.le_def] at *; omega)
      simp [this, hx, isSomeAndEq]
    · have : y ≠ x := fun h' => hx (h' ▸ h1)
      simp [this, hx, isSomeAndEq]

omit [Profile] in
theorem Enum.mem_iff {data : List Word} {l : List Bool} (h : Enum data l) {x : Word} (hx : x.toNat < l.length) :
    l[x.toNat]? = some (decide (x ∈ data)) := by
  have h1 := h.mem x.toNat
  have h2 : (∃ y, y ∈ data ∧ y.toNat = x.toNat) ↔ x ∈ data := by
    constructor
    · rintro ⟨y, y1, y2⟩; rwa [BitVec.eq_of_toNat_eq y2] at y1
    · intro h; exact ⟨x, h, rfl⟩
  rw [h2] at h1
  rw [List.getElem?_eq_getElem hx, Option.some.injEq] at h1 ⊢
  by_cases h3 : x ∈ data
  · simp [h3, h1.mpr h3]
  · have : ¬ l[x.toNat] = true := fun h' => h3 (h1.mp h')
    simp [h3, this]

theorem behaves {fl : Nat → Nat} (hfl : LogLike fl) {data : List Word} {l : List Bool} (h : Enum data l) :
    ∃ s, new fl data (BitVec.ofNat 64 l.length) = .ok s ∧ s.Behaves l := by
  obtain ⟨ef, ps, h1, h2, h3, h4, h5, _⟩ := new_eq hfl h
  have hlt := h.lt
  have hlen : (BitVec.ofNat 64 l.length).toNat = l.length := by
    rw [BitVec.toNat_ofNat, Nat.mod_eq_of_lt hlt]
  have hset : ∀ i : Word, Sparse.isSet ⟨ef, BitVec.ofNat 64 l.length⟩ i = .ok l[i.toNat]? := by
    intro i
    unfold Sparse.isSet
    by_cases hi : i.toNat < l.length
    · rw [if_neg (by simp only [ge_iff_le, BitVec.le_def, hlen]; omega)]
      obtain ⟨o, o1, o2⟩ := h3 i
      simp only [o1, ok_bind]
      rw [isPredecessor_hit o2, h.mem_iff hi]; rfl
    · rw [if_pos (by simp only [ge_iff_le, BitVec.le_def, hlen]; omega), List.getElem?_eq_none (by omega)]; rfl
  have hr : ∀ i : Word, (BitVec.ofNat 64 (rank true l i.toNat)).toNat = rank true l i.toNat := by
    intro i
    have := rank_le l true i.toNat
    rw [BitVec.toNat_ofNat, Nat.mod_eq_of_lt (by omega)]
  refine ⟨_, h1, hlen, hset, ?_, fun i => ⟨_, h4 i, hr i⟩, ?_, ?_, ?_, ?_⟩
  · intro i
    unfold Sparse.get
    rw [hset, ok_bind]
    rfl
  · intro i
    unfold Sparse.rank0
    by_cases hi : i.toNat < l.length
    · rw [if_neg (by simp only [ge_iff_le, BitVec.le_def, hlen]; omega)]
      simp only [h4, ok_bind]
      obtain ⟨d, d1, d2⟩ := subW_of_le (a := i) (b := BitVec.ofNat 64 (rank true l i.toNat))
        (by rw [hr]; exact rank_le _ _ _)
      exact ⟨d, d1, by rw [d2, hr, rank_compl l _ (by omega)]⟩
    · rw [if_pos (by simp only [ge_iff_le, BitVec.le_def, hlen]; omega)]
      simp only [h4, ok_bind]
      obtain ⟨d, d1, d2⟩ := subW_of_le (a := BitVec.ofNat 64 l.length)
        (b := BitVec.ofNat 64 (rank true l (BitVec.ofNat 64 l.length).toNat))
        (by rw [hr, hlen]; exact rank_le _ _ _)
      refine ⟨d, d1, ?_⟩
      rw [d2, hr, hlen, rank_of_ge l false i.toNat (by omega), rank_compl l _ (Nat.le_refl _)]
  · intro k hk
    have hk' : k < data.length := by rw [h.length]; exact hk
    unfold Sparse.select1
    simp only [h2, ok_bind, List.getElem?_eq_getElem hk']
    exact ⟨_, rfl, h.select hk'⟩
  · intro k hk
    unfold Sparse.select1
    simp only [h2, ok_bind, List.getElem?_eq_none (show data.length ≤ k by rw [h.length]; exact hk)]
    rfl
  · rw [h.positions_eq]
    obtain ⟨it, i1, i2⟩ := EfIter.execute_eq h5
    exact ⟨it, i1, fun ops hops => (i2 ops hops).1⟩

omit [Profile] in
theorem enum_indicator {input : List Word} {len : Word} (hs : input.Pairwise (· < ·))
    (hb : ∀ x, x ∈ input → x < len) (hn : input.length < 2 ^ 60) :
    Enum input (indicator input len.toNat) := by
  have hl := len.isLt
  refine ⟨hs, by simpa [indicator] using hl, hn, fun p => ?_⟩
  unfold indicator
  rw [List.getElem?_map]
  constructor
  · intro h
    by_cases hp : p < len.toNat
    · rw [List.getElem?_range hp] at h
      simp at h
      refine ⟨_, h, ?_⟩
      rw [BitVec.toNat_ofNat, Nat.mod_eq_of_lt (by omega)]
    · rw [List.getElem?_eq_none (by simpa using hp)] at h; cases h
  · rintro ⟨x, hx, rfl⟩
    have := hb x hx
    rw [BitVec.lt_def] at this
    rw [List.getElem?_range this]
    simpa using hx

end Sparse

/-- `new` on strictly increasing positions below `len` yields a vector that behaves as the bit sequence of
that length with ones at these positions. -/
theorem C27_new {fl : Nat → Nat} (hfl : LogLike fl) {input : List Word} {len : Word}
    (hs : input.Pairwise (· < ·)) (hb : ∀ x, x ∈ input → x < len) (hn : input.length < 2 ^ 60) :
    ∃ s, Sparse.new fl input len = .ok s ∧ s.Behaves (indicator input len.toNat) := by
  obtain ⟨s, h1, h2⟩ := Sparse.behaves hfl (Sparse.enum_indicator hs hb hn)
  refine ⟨s, ?_, h2⟩
  rw [← h1]
  congr 1
  simp [indicator]

example := C27_new logLike_ceilLog2 (input := [3#64, 17#64, 40#64]) (len := 50#64) (by decide) (by simp) (by decide)

/-- With debug assertions, positions that are not strictly increasing are rejected by a panic. -/
theorem C27_new_panics (hd : Profile.debug = true) {fl : Nat → Nat} {input : List Word} {len : Word}
    (hs : ¬ input.Pairwise (· < ·)) : Sparse.new fl input len = .error .assertion := by
  unfold Sparse.new
  by_cases h1 : Sorted input
  · rw [dassertR_true ((windowsSorted_iff _).mpr h1), ok_bind, dassertR_false hd]
    · rfl
    · intro h2
      apply hs
      clear hs
      revert h1 h2
      unfold Sorted
      induction input with
      | nil => intro _ _; exact List.Pairwise.nil
      | cons a l ih =>
        intro h1 h2
        cases l with
        | nil => simp
        | cons b l =>
          simp only [Sparse.windowsDistinct, Bool.and_eq_true, decide_eq_true_eq] at h2
          have h3 := List.pairwise_cons.mp h1
          have h4 := ih h3.2 h2.2
          · refine List.pairwise_cons.mpr ⟨?_, h4⟩
            intro x hx
            have hab : a < b := by
              have := h3.1 b (by simp)
              have hne : a.toNat ≠ b.toNat := fun e => h2.1 (BitVec.eq_of_toNat_eq e)
              rw [BitVec.le_def] at this
              rw [BitVec.lt_def]; omega
            rcases List.mem_cons.mp hx with rfl | hx
            · exact hab
            · have := (List.pairwise_cons.mp h4).1 x hx
              rw [BitVec.lt_def] at *; omega
  · rw [dassertR_false hd (fun h => h1 ((windowsSorted_iff _).mp h))]
    rfl

example : ¬ [1#64, 3#64, 3#64].Pairwise (· < ·) := by decide

/-- `from_bitvec` behaves as the given bit vector. The positions of the ones are collected in a vector, which cannot
have `2^60` elements. -/
theorem C27_from_bitvec {fl : Nat → Nat} (hfl : LogLike fl) {v : BV} (h : v.WF) (hn : v.len < 2 ^ 64)
    (hc : v.bits.count true < 2 ^ 60) :
    ∃ s, Sparse.fromBitVec fl v = .ok s ∧ s.Behaves v.bits := by
  have he := Sparse.enum_positions (l := v.bits) true (by simpa using hn) hc
  have hb : v.bits.map (· == true) = v.bits := by simp
  rw [hb] at he
  obtain ⟨s, h1, h2⟩ := Sparse.behaves hfl he
  refine ⟨s, ?_, h2⟩
  unfold Sparse.fromBitVec
  have hp := Sparse.collect_all h hn true
  rw [show b2w true = 1#64 from rfl] at hp
  rw [hp, ok_bind, ← h1, BV.length_bits]

/-- `from_bitvec_inverted` behaves as the complement of the given bit vector. -/
theorem C27_from_bitvec_inverted {fl : Nat → Nat} (hfl : LogLike fl) {v : BV} (h : v.WF) (hn : v.len < 2 ^ 64)
    (hc : v.bits.count false < 2 ^ 60) :
    ∃ s, Sparse.fromBitVecInverted fl v = .ok s ∧ s.Behaves (v.bits.map (!·)) := by
  have he := Sparse.enum_positions (l := v.bits) false (by simpa using hn) hc
  have hb : v.bits.map (· == false) = v.bits.map (!·) := by
    apply List.map_congr_left; intro b _; cases b <;> rfl
  rw [hb] at he
  obtain ⟨s, h1, h2⟩ := Sparse.behaves hfl he
  refine ⟨s, ?_, h2⟩
  unfold Sparse.fromBitVecInverted
  have hp := Sparse.collect_all h hn false
  rw [show b2w false = 0#64 from rfl] at hp
  rw [hp, ok_bind, ← h1, List.length_map, BV.length_bits]

example := C27_from_bitvec_inverted logLike_ceilLog2 (v := BV.fromOnes 70) (by decide) (by decide) (by decide +kernel)

/-- Defect: the conversion from a bit vector (`From`) does not preserve the bits, it yields the complement. -/
theorem C27_convert_defect {fl : Nat → Nat} (hfl : LogLike fl) {v : BV} (h : v.WF) (hn : v.len < 2 ^ 64)
    (hc : v.bits.count false < 2 ^ 60) :
    ∃ s, Sparse.convert fl v = .ok s ∧ s.Behaves (v.bits.map (!·)) :=
  C27_from_bitvec_inverted hfl h hn hc

example := C27_convert_defect logLike_ceilLog2 (v := BV.fromOnes 70) (by decide) (by decide) (by decide +kernel)

/-- Partial: `is_set_unchecked` and `get_unchecked` return the bit if a one occurs at or before the
position, see `C27_unchecked_defect`. -/
theorem C27_unchecked_partial {fl : Nat → Nat} (hfl : LogLike fl) {input : List Word} {len : Word}
    (hs : input.Pairwise (· < ·)) (hb : ∀ x, x ∈ input → x < len) (hn : input.length < 2 ^ 60) :
    ∃ s, Sparse.new fl input len = .ok s ∧ ∀ i, i < len → (∃ x, x ∈ input ∧ x ≤ i) →
      s.isSetUnchecked i = .ok (decide (i ∈ input)) ∧
      s.getUnchecked i = .ok (if i ∈ input then 1#64 else 0#64) := by
  obtain ⟨ef, ps, h1, h2, h3, h4, h5, _⟩ := Sparse.new_eq hfl (Sparse.enum_indicator hs hb hn)
  have hlen : BitVec.ofNat 64 (indicator input len.toNat).length = len := by simp [indicator]
  rw [hlen] at h1
  refine ⟨_, h1, fun i hi ⟨x, x1, x2⟩ => ?_⟩
  have key : Sparse.isSetUnchecked ⟨ef, len⟩ i = .ok (decide (i ∈ input)) := by
    obtain ⟨o, o1, o2⟩ := h3 i
    have ho := Sparse.isPredecessor_hit o2
    unfold EF.predecessor at o1
    unfold Sparse.isSetUnchecked
    by_cases hc : i < ef.zero ∨ ef.len = 0
    · rw [if_pos hc] at o1
      injection o1 with o1
      subst o1
      have : ∀ z ∈ input, i < z := o2
      have := this x x1
      rw [BitVec.le_def] at x2
      rw [BitVec.lt_def] at this
      omega
    · rw [if_neg hc] at o1
      obtain ⟨y, y1, y2⟩ := bind_eq_ok.mp o1
      injection y2 with y2
      subst y2
      simp only [y1, ok_bind]
      rw [← ho]; rfl
  refine ⟨key, ?_⟩
  unfold Sparse.getUnchecked
  rw [key, ok_bind]
  by_cases hm : i ∈ input <;> simp [hm, b2w]

example := C27_unchecked_partial logLike_ceilLog2 (input := [3#64, 17#64, 40#64]) (len := 50#64) (by decide) (by simp) (by decide)

/-- Defect: `is_set_unchecked` and `get_unchecked` panic on every position before the first one, although
the position is in bounds (with overflow checks; the subtraction of the first position underflows). -/
theorem C27_unchecked_defect (hd : Profile.debug = true) {fl : Nat → Nat} (hfl : LogLike fl) {input : List Word} {len : Word}
    (hs : input.Pairwise (· < ·)) (hb : ∀ x, x ∈ input → x < len) (hn : input.length < 2 ^ 60) :
    ∃ s, Sparse.new fl input len = .ok s ∧ ∀ i, i < len → (∀ x, x ∈ input → i < x) →
      (input ≠ [] ∨ 0#64 < i) →
      s.isSetUnchecked i = .error .overflow ∧ s.getUnchecked i = .error .overflow := by
  obtain ⟨ef, ps, h1, h2, h3, h4, h5, h6⟩ := Sparse.new_eq hfl (Sparse.enum_indicator hs hb hn)
  have hlen : BitVec.ofNat 64 (indicator input len.toNat).length = len := by simp [indicator]
  rw [hlen] at h1
  refine ⟨_, h1, fun i hi hx hne => ?_⟩
  have key : Sparse.isSetUnchecked ⟨ef, len⟩ i = .error .overflow := by
    unfold Sparse.isSetUnchecked EF.predecessorUnchecked
    rcases h6 with ⟨rfl, h7, h8⟩ | hst
    · have hi0 : 0#64 < i := by
        rcases hne with h' | h'
        · exact absurd rfl h'
        · exact h'
      simp only [h7, h8, gt_iff_lt, if_pos hi0]
      rw [subR_overflow hd (by omega)]; rfl
    · have hz : ef.zero ∈ input := List.mem_of_getElem? hst.zero.symm
      have hlt := hx _ hz
      have hm : ¬ i > ef.max := by
        have h1 := hst.zero_le hst.pos
        have h2 := hst.le_max hst.pos
        rw [BitVec.lt_def] at hlt
        rw [gt_iff_lt, BitVec.lt_def]; omega
      simp only [if_neg hm]
      unfold subW
      rw [BitVec.lt_def] at hlt
      rw [if_neg (by omega), wrapR_debug hd]
      rfl
  refine ⟨key, ?_⟩
  unfold Sparse.getUnchecked
  rw [key]; rfl

example : [3#64, 17#64, 40#64].Pairwise (· < ·) ∧ (∀ x, x ∈ [3#64, 17#64, 40#64] → x < 50#64) := by
  constructor
  · simp
  · intro x hx
    simp at hx
    rcases hx with rfl | rfl | rfl <;> decide

example : (BV.fromOnes 70).WF ∧ (BV.fromOnes 70).len < 2 ^ 64 ∧ (BV.fromOnes 70).bits.count true < 2 ^ 60 ∧
    (BV.fromOnes 70).bits.count false < 2 ^ 60 := by decide +kernel

/-- The queries and the two defects on concrete vectors. -/
example : (do
    let s ← Sparse.new ceilLog2 [3#64, 17#64, 40#64] 50#64
    let a ← s.isSet 17#64
    let b ← s.isSet 18#64
    let r ← s.rank0 60#64
    let t ← s.select1 3
    pure (a, b, r, t)) = .ok (some true, some false, 47#64, 50#64) := by decide +revert +kernel

example (hd : Profile.debug = true) : (do
    let s ← Sparse.new ceilLog2 [3#64, 17#64, 40#64] 50#64
    s.isSetUnchecked 2#64) = .error .overflow := by decide +revert +kernel

example : (do
    let s ← Sparse.convert ceilLog2 (BV.fromOnes 3)
    s.get 1#64) = .ok (some 0#64) := by decide +revert +kernel

end Vers
