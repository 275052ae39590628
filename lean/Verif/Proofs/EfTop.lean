import Verif.Proofs.EfSearch

/-! # The queries of the Elias-Fano vector -/

set_option linter.unusedSimpArgs false

namespace Vers

variable [Profile]
open Spec
namespace EF
variable {ef : EF} {data : List Word}

/-- `ef` stores the non-empty sorted sequence `data` -/
structure Stores (ef : EF) (data : List Word) : Prop where
  inv : ef.Inv data.length (efD data)
  sorted : Sorted data
  zero : some ef.zero = data[0]?
  lt : data.length < 2 ^ 60

theorem Stores.pos (h : ef.Stores data) : 0 < data.length := h.inv.pos

theorem Stores.value (h : ef.Stores data) {i : Nat} (hi : i < data.length) :
    ef.zero.toNat + efD data i = data[i].toNat := by
  have := efD_add h.sorted hi
  have hz := h.zero
  rw [List.getElem?_eq_getElem (show 0 < data.length by omega)] at hz
  rw [Option.some.inj hz, this]

theorem Stores.eq_of (h : ef.Stores data) {i : Nat} (hi : i < data.length) {x : Word}
    (hx : x.toNat = ef.zero.toNat + efD data i) : x = data[i] := by
  apply BitVec.eq_of_toNat_eq
  rw [hx, h.value hi]

theorem Stores.zero_le (h : ef.Stores data) {i : Nat} (hi : i < data.length) : ef.zero.toNat ≤ data[i].toNat := by
  have := h.value hi; omega

theorem Stores.le_max (h : ef.Stores data) {i : Nat} (hi : i < data.length) : data[i].toNat ≤ ef.max.toNat := by
  have h1 := h.value hi
  have h2 := h.inv.max
  have h3 := h.inv.mono i (data.length - 1) (by omega) (by omega)
  omega

theorem Stores.getUnchecked (h : ef.Stores data) {i : Nat} (hi : i < data.length) :
    ef.getUnchecked i = .ok data[i] := by
  obtain ⟨x, x1, x2⟩ := h.inv.get_eq hi
  rw [x1, h.eq_of hi x2]

theorem Stores.get (h : ef.Stores data) (i : Nat) : ef.get i = .ok data[i]? := by
  unfold EF.get
  rw [h.inv.len]
  by_cases hi : i < data.length
  · rw [if_neg (by omega), h.getUnchecked hi, ok_bind, List.getElem?_eq_getElem hi]; rfl
  · rw [if_pos (by omega), List.getElem?_eq_none (by omega)]; rfl

omit [Profile] in
theorem low_query (hw : ef.lowerLen < 64) (q : Word) :
    (q &&& ((1#64 <<< ef.lowerLen) - 1#64)).toNat = q.toNat % 2 ^ ef.lowerLen := and_mask_toNat q hw

omit [Profile] in
theorem split_query (w : Nat) (q : Nat) : q = q / 2 ^ w * 2 ^ w + q % 2 ^ w := by
  rw [Nat.mul_comm]; exact (Nat.div_add_mod _ _).symm

theorem Stores.block (h : ef.Stores data) {q : Word} (hq : q.toNat ≤ efD data (data.length - 1)) :
    ∃ s e, Block ef data.length (efD data) (q >>> ef.lowerLen).toNat s e := by
  rw [shr_toNat]
  exact h.inv.exists_block (Nat.div_le_div_right hq)

theorem Stores.max_sub (h : ef.Stores data) {n q : Word} (h1 : n.toNat ≤ ef.max.toNat)
    (h3 : q.toNat = n.toNat - ef.zero.toNat) : q.toNat ≤ efD data (data.length - 1) := by
  have := h.inv.max; omega

theorem Stores.predecessor_budget (h : ef.Stores data) {b : Nat} (hb : ef.BinOk b) (n : Word) :
    ∃ o, ef.predecessor n (ef.upper.supers.length + 1) b = .ok o ∧ IsPredecessor data n o := by
  have hpos := h.pos
  unfold EF.predecessor
  rw [h.inv.len]
  by_cases h0 : n < ef.zero
  · rw [if_pos (Or.inl h0)]
    refine ⟨none, rfl, ?_⟩
    intro z hz
    obtain ⟨i, hi, rfl⟩ := List.getElem_of_mem hz
    have := h.zero_le hi
    rw [BitVec.lt_def] at *; omega
  · rw [if_neg (by intro h'; rcases h' with h' | h'; exact h0 h'; omega)]
    rw [BitVec.lt_def] at h0
    unfold predecessorUnchecked
    by_cases hm : n > ef.max
    · rw [if_pos hm, h.inv.len, subR_of_le (by omega), ok_bind, h.getUnchecked (by omega), ok_bind]
      refine ⟨_, rfl, List.getElem_mem _, ?_, ?_⟩
      · have := h.le_max (i := data.length - 1) (by omega)
        rw [gt_iff_lt, BitVec.lt_def] at hm
        rw [BitVec.le_def]; omega
      · intro z hz _
        obtain ⟨i, hi, rfl⟩ := List.getElem_of_mem hz
        rw [BitVec.le_def]
        exact sorted_le h.sorted (by omega) (by omega)
    · rw [if_neg hm]
      rw [gt_iff_lt, BitVec.lt_def] at hm
      obtain ⟨q, q1, q2⟩ := subW_of_le (a := n) (b := ef.zero) (by omega)
      rw [q1, ok_bind]
      obtain ⟨s, e, B⟩ := h.block (h.max_sub (by omega) q2)
      simp only []
      rw [B.sel_open h.inv, ok_bind, subR_of_le (by omega), ok_bind, Nat.add_sub_cancel_left]
      obtain ⟨x, j, x1, j1, j2, j3, j4⟩ := search_up hb h.inv B (q := q)
        (by rw [shr_toNat]; exact split_query _ _) (low_query h.inv.w q) (Nat.mod_lt _ (pow_pos' _))
      unfold mskW at x1
      rw [x1, ok_bind, h.eq_of j1 j2]
      have hv := h.value j1
      refine ⟨_, rfl, List.getElem_mem _, by rw [BitVec.le_def]; omega, ?_⟩
      intro z hz hzn
      obtain ⟨i, hi, rfl⟩ := List.getElem_of_mem hz
      have hvi := h.value hi
      rw [BitVec.le_def] at *
      have := j4 i hi (by omega)
      omega

theorem Stores.predecessor (h : ef.Stores data) (n : Word) :
    ∃ o, ef.predecessor n = .ok o ∧ IsPredecessor data n o := h.predecessor_budget (binOk_default ef) n

theorem Stores.successor_budget (h : ef.Stores data) {b : Nat} (hb : ef.BinOk b) (n : Word) :
    ∃ o, ef.successor n (ef.upper.supers.length + 1) b = .ok o ∧ IsSuccessor data n o := by
  have hpos := h.pos
  unfold EF.successor
  rw [h.inv.len]
  by_cases hm : n > ef.max
  · rw [if_pos (Or.inl hm)]
    refine ⟨none, rfl, ?_⟩
    intro z hz
    obtain ⟨i, hi, rfl⟩ := List.getElem_of_mem hz
    have := h.le_max hi
    rw [gt_iff_lt] at hm
    rw [BitVec.lt_def] at *; omega
  · rw [if_neg (by intro h'; rcases h' with h' | h'; exact hm h'; omega)]
    rw [gt_iff_lt, BitVec.lt_def] at hm
    unfold successorUnchecked
    by_cases h0 : n < ef.zero
    · rw [if_pos h0, h.getUnchecked hpos, ok_bind]
      rw [BitVec.lt_def] at h0
      have hz0 := h.zero_le hpos
      refine ⟨_, rfl, List.getElem_mem _, by rw [BitVec.le_def]; omega, ?_⟩
      intro z hz _
      obtain ⟨i, hi, rfl⟩ := List.getElem_of_mem hz
      rw [BitVec.le_def]
      exact sorted_le h.sorted (by omega) (by omega)
    · rw [if_neg h0]
      rw [BitVec.lt_def] at h0
      obtain ⟨q, q1, q2⟩ := subW_of_le (a := n) (b := ef.zero) (by omega)
      rw [q1, ok_bind]
      have hqm := h.max_sub (by omega) q2
      obtain ⟨s, e, B⟩ := h.block hqm
      simp only []
      have he : 1 ≤ e := (B.hi 0 hpos).mp (by unfold hiD; rw [h.inv.d0]; simp)
      have hk := B.hu
      have hlim := h.inv.ulim
      unfold hiD at hk
      rw [addU_of_lt (by omega), ok_bind, B.sel_close h.inv, ok_bind, subR_of_le (by omega), ok_bind,
        subR_of_le (by omega), ok_bind]
      obtain ⟨x, j, x1, j1, j2, j3, j4⟩ := search_down hb h.inv B (q := q)
        (by rw [shr_toNat]; exact split_query _ _) (low_query h.inv.w q) (Nat.mod_lt _ (pow_pos' _)) he hqm
      unfold mskW at x1
      rw [show (q >>> ef.lowerLen).toNat + 1 + e - (q >>> ef.lowerLen).toNat - 2 = e - 1 by omega, x1, ok_bind,
        h.eq_of j1 j2]
      have hv := h.value j1
      refine ⟨_, rfl, List.getElem_mem _, by rw [BitVec.le_def]; omega, ?_⟩
      intro z hz hzn
      obtain ⟨i, hi, rfl⟩ := List.getElem_of_mem hz
      have hvi := h.value hi
      rw [BitVec.le_def] at *
      have := j4 i hi (by omega)
      omega

theorem Stores.successor (h : ef.Stores data) (n : Word) :
    ∃ o, ef.successor n = .ok o ∧ IsSuccessor data n o := h.successor_budget (binOk_default ef) n

omit [Profile] in
theorem countP_of_split {l : List Word} {p : Word → Bool} {k : Nat} (hk : k ≤ l.length)
    (h : ∀ i (hi : i < l.length), p l[i] = true ↔ i < k) : l.countP p = k := by
  rw [← List.take_append_drop k l, List.countP_append]
  have h1 : (l.take k).countP p = k := by
    rw [List.countP_eq_length.mpr, List.length_take]; omega
    intro a ha
    obtain ⟨i, hi, rfl⟩ := List.getElem_of_mem ha
    rw [List.getElem_take]
    rw [List.length_take] at hi
    exact (h i (by omega)).mpr (by omega)
  have h2 : (l.drop k).countP p = 0 := by
    rw [List.countP_eq_zero]
    intro a ha
    obtain ⟨i, hi, rfl⟩ := List.getElem_of_mem ha
    rw [List.getElem_drop]
    rw [List.length_drop] at hi
    intro h'
    have := (h (k + i) (by omega)).mp h'
    omega
  rw [h1, h2]; simp

theorem Stores.rank (h : ef.Stores data) (n : Word) :
    ef.rank n = .ok (BitVec.ofNat 64 (data.countP (fun y => decide (y < n)))) := by
  have hpos := h.pos
  unfold EF.rank
  rw [h.inv.len]
  by_cases hm : n > ef.max
  · rw [if_pos (Or.inl hm)]
    rw [gt_iff_lt, BitVec.lt_def] at hm
    rw [countP_of_split (k := data.length) (Nat.le_refl _)]
    · rfl
    · intro i hi
      have := h.le_max hi
      rw [decide_eq_true_eq, BitVec.lt_def]
      omega
  · rw [if_neg (by intro h'; rcases h' with h' | h'; exact hm h'; omega)]
    rw [gt_iff_lt, BitVec.lt_def] at hm
    by_cases h0 : n < ef.zero
    · rw [if_pos h0]
      rw [BitVec.lt_def] at h0
      rw [countP_of_split (k := 0) (Nat.zero_le _)]
      · rfl
      · intro i hi
        have := h.zero_le hi
        rw [decide_eq_true_eq, BitVec.lt_def]
        omega
    · rw [if_neg h0]
      rw [BitVec.lt_def] at h0
      obtain ⟨q, q1, q2⟩ := subW_of_le (a := n) (b := ef.zero) (by omega)
      rw [q1, ok_bind]
      obtain ⟨s, e, B⟩ := h.block (h.max_sub (by omega) q2)
      simp only []
      rw [B.sel_open h.inv, ok_bind, subR_of_le (by omega), ok_bind, Nat.add_sub_cancel_left]
      obtain ⟨k, x1, k1, k2⟩ := search_idx (binOk_default ef) h.inv B (q := q)
        (by rw [shr_toNat]; exact split_query _ _) (low_query h.inv.w q) (Nat.mod_lt _ (pow_pos' _))
      unfold mskW at x1
      rw [h.inv.len] at x1
      rw [x1, countP_of_split k1]
      intro i hi
      have := h.value hi
      rw [decide_eq_true_eq, BitVec.lt_def, ← k2 i hi]
      omega

theorem Inv.combine {n : Nat} {D : Nat → Nat} (h : ef.Inv n D) {i : Nat} (hi : i < n) :
    ((BitVec.ofNat 64 (hiD ef D i) <<< ef.lowerLen) ||| loW ef D i).toNat = D i := by
  have hb := h.bound i hi
  have hs := hi_mul_add_lo ef D i
  unfold loW
  rw [combine_toNat (loD_lt _ _ _) (by omega)]
  exact hs

theorem Stores.delta (h : ef.Stores data) {i : Nat} (hi : i < data.length) :
    ∃ d, ef.delta i = .ok (some d) ∧
      d.toNat = if i = 0 then data[i].toNat else data[i].toNat - (data[i - 1]'(by omega)).toNat := by
  have hv := h.value hi
  unfold EF.delta
  rw [h.inv.len, if_neg (by omega), h.inv.select1 hi, ok_bind, subR_of_le (by omega), ok_bind,
    Nat.add_sub_cancel]
  have hp := h.inv.pos_lt hi
  rw [h.inv.getUpper (by omega), ok_bind]
  have hc := h.inv.combine hi
  by_cases hb : lbit ef.upper.data (hiD ef (efD data) i + i) = true
  · rw [if_pos (by rw [hb]; rfl)]
    obtain ⟨k, k1, k2⟩ := (h.inv.ubit _ (by omega)).mp hb
    have k3 : hiD ef (efD data) i + i = hiD ef (efD data) k + k + 1 := k2
    have hk : k < i := by
      rcases Nat.lt_or_ge k i with h1 | h1
      · exact h1
      · have := h.inv.hi_mono h1 k1; omega
    have hk' : hiD ef (efD data) (i - 1) = hiD ef (efD data) i := by
      have h1 := h.inv.hi_mono (i := k) (j := i - 1) (by omega) (by omega)
      have h2 := h.inv.hi_mono (i := i - 1) (j := i) (by omega) (by omega)
      have h3 : ∀ j, k ≤ j → j < i → hiD ef (efD data) j + j < hiD ef (efD data) i + i := by
        intro j _ hj
        have := h.inv.hi_mono (Nat.le_of_lt hj) hi; omega
      rcases Nat.lt_or_ge k (i - 1) with h4 | h4
      · have := h.inv.enum_mono k (i - 1) h4 (by omega); have := h3 (i - 1) (by omega) (by omega); omega
      · have : k = i - 1 := by omega
        subst this; omega
    have l1 : ef.lowAt i = .ok (loW ef (efD data) i) := h.inv.low i hi
    have l2 : ef.lowAt (i - 1) = .ok (loW ef (efD data) (i - 1)) := h.inv.low (i - 1) (by omega)
    have hv' := h.value (i := i - 1) (by omega)
    have e1 := hi_mul_add_lo ef (efD data) i
    have e2 := hi_mul_add_lo ef (efD data) (i - 1)
    rw [hk'] at e2
    have hm := h.inv.mono (i - 1) i (by omega) hi
    have t1 := loW_toNat (D := efD data) h.inv.w i
    have t2 := loW_toNat (D := efD data) h.inv.w (i - 1)
    obtain ⟨d, d1, d2⟩ := subW_of_le (a := loW ef (efD data) i) (b := loW ef (efD data) (i - 1)) (by omega)
    rw [l1, ok_bind, subR_of_le (by omega), ok_bind, l2, ok_bind, d1, ok_bind]
    refine ⟨d, rfl, ?_⟩
    rw [if_neg (by omega)]
    omega
  · rw [if_neg (by intro h'; rw [Bool.not_eq_true] at hb; rw [hb] at h'; exact absurd h' (by decide))]
    unfold deltaFar
    have l1 : ef.lowAt i = .ok (loW ef (efD data) i) := h.inv.low i hi
    rw [subR_of_le (by omega), ok_bind, subR_of_le (by omega), ok_bind, l1, ok_bind,
      show hiD ef (efD data) i + i + 1 - i - 1 = hiD ef (efD data) i by omega]
    simp only []
    by_cases h0 : i = 0
    · rw [if_pos h0, if_pos h0]
      obtain ⟨d, d1, d2⟩ := addW_of_lt (a := (BitVec.ofNat 64 (hiD ef (efD data) i) <<< ef.lowerLen) |||
        loW ef (efD data) i) (b := ef.zero) (by rw [hc]; have := data[i].isLt; omega)
      rw [d1, ok_bind]
      exact ⟨d, rfl, by omega⟩
    · rw [if_neg h0, if_neg h0, h.inv.select1 (i := i - 1) (by omega), ok_bind, subR_of_le (by omega), ok_bind,
        subR_of_le (by omega), ok_bind]
      have l2 : ef.lowAt (i - 1) = .ok (loW ef (efD data) (i - 1)) := h.inv.low (i - 1) (by omega)
      have hv' := h.value (i := i - 1) (by omega)
      have hc' := h.inv.combine (i := i - 1) (by omega)
      have hm := h.inv.mono (i - 1) i (by omega) hi
      rw [l2, ok_bind, show hiD ef (efD data) (i - 1) + (i - 1) + 1 - (i - 1) - 1 = hiD ef (efD data) (i - 1) by
        omega]
      obtain ⟨d, d1, d2⟩ := subW_of_le (a := (BitVec.ofNat 64 (hiD ef (efD data) i) <<< ef.lowerLen) |||
        loW ef (efD data) i) (b := (BitVec.ofNat 64 (hiD ef (efD data) (i - 1)) <<< ef.lowerLen) |||
        loW ef (efD data) (i - 1)) (by omega)
      rw [d1, ok_bind]
      exact ⟨d, rfl, by omega⟩

end EF

/-- construction: the empty vector, or one that stores the data -/
theorem fromSlice_stores {fl : Nat → Nat} (hfl : LogLike fl) {data : List Word} (hs : Sorted data)
    (hl : data.length < 2 ^ 60) :
    ∃ ef, EF.fromSlice fl data = .ok ef ∧ ef.len = data.length ∧ ef.upper.Inv ∧
      ((data = [] ∧ ef.upper.len = 0) ∨ ef.Stores data) := by
  by_cases h0 : data = []
  · subst h0
    unfold EF.fromSlice
    obtain ⟨rs, r1, r2, r3, r4⟩ := fromBitVec_inv BV.wf_new
    rw [if_pos rfl, r1, ok_bind]
    exact ⟨_, rfl, rfl, r2, Or.inl ⟨rfl, r4⟩⟩
  · obtain ⟨ef, e1, e2, e3⟩ := fromSlice_inv hfl hs h0 hl
    exact ⟨ef, e1, e2.len, e2.up, Or.inr ⟨e2, hs, e3, hl⟩⟩

end Vers
