import Verif.Proofs.RsIter
import Verif.Proofs.BitVecOps4

/-! # Equality of `RsVec` and the SIMD block search -/

set_option linter.unusedSimpArgs false

namespace Vers

variable [Profile]
open Spec

namespace RsVec

variable {rs other : RsVec}

omit [Profile] in
theorem getUnchecked_eq {i : Nat} (hi : i < 64 * rs.data.length) :
    rs.getUnchecked i = .ok (b2w (lbit rs.data i)) :=
  BV.getUnchecked_eq (v := rs.intoBitVec) hi

omit [Profile] in
theorem wf_into (h : rs.Inv) : rs.intoBitVec.WF := h.wf

omit [Profile] in
/-- a set contained in another one with the same number of elements is equal to it -/
theorem cnt_eq_of_le {f g : Nat → Bool} : ∀ (n : Nat), (∀ i, i < n → f i = true → g i = true) →
    cnt f n = cnt g n → ∀ i, i < n → f i = g i := by
  have le : ∀ n, (∀ i, i < n → f i = true → g i = true) → cnt f n ≤ cnt g n := by
    intro n
    induction n with
    | zero => intro _; simp
    | succ n ih =>
      intro h
      rw [cnt_succ, cnt_succ]
      have := ih (fun i hi => h i (by omega))
      have h2 := h n (by omega)
      cases hf : f n with
      | false => simp; omega
      | true => rw [h2 hf]; simp; omega
  intro n
  induction n with
  | zero => intro _ _ i hi; omega
  | succ n ih =>
    intro h hc i hi
    rw [cnt_succ, cnt_succ] at hc
    have hle := le n (fun i hi => h i (by omega))
    have h2 := h n (by omega)
    have hfg : f n = g n := by
      cases hf : f n with
      | true => rw [h2 hf]
      | false =>
        cases hg : g n with
        | false => rfl
        | true => rw [hf, hg] at hc; simp at hc; omega
    by_cases hin : i = n
    · rw [hin]; exact hfg
    · rw [hfg] at hc
      exact ih (fun i hi => h i (by omega)) (by omega) i (by omega)

/-- the loop returns whether all remaining positions hold the bit with the right rank -/
theorem sparseLoop_eq (h : rs.Inv) (h' : other.Inv) (hlen : rs.len = other.len) (zero : Bool) :
    ∀ (fuel : Nat) (it : SelIter) (k : Nat) (l : List Nat), SelIter.Rel rs zero it l → l.length < fuel →
      (∀ p, p ∈ l → p < rs.len) →
      ∃ b, sparseLoop rs other zero false fuel it k = .ok b ∧
        (b = true ↔ ∀ i p, l[i]? = some p → lbit other.data p = !zero ∧ C other.data (!zero) p = k + i) := by
  intro fuel
  induction fuel with
  | zero => intro it k l _ hf; omega
  | succ fuel ih =>
    intro it k l hr hf hm
    unfold sparseLoop
    obtain ⟨it', g1, g2⟩ := SelIter.next_rel h hr
    rw [g1, ok_bind]
    cases l with
    | nil => exact ⟨true, rfl, by simp⟩
    | cons p l =>
      simp only [List.head?_cons]
      have hp : p < rs.len := hm p (by simp)
      have hwf := h'.wf
      rw [getUnchecked_eq (by omega), ok_bind]
      have e1 : ((b2w (lbit other.data p) == 0#64) != zero) = true ↔ ¬ lbit other.data p = !zero := by
        cases lbit other.data p <;> cases zero <;> decide
      by_cases hb : ((b2w (lbit other.data p) == 0#64) != zero) = true
      · rw [if_pos hb]
        refine ⟨false, rfl, ?_⟩
        constructor
        · simp
        · intro hh; exact absurd (hh 0 p (by simp)).1 (e1.mp hb)
      · rw [if_neg hb, rank_eq h', ok_bind]
        have hb' : lbit other.data p = !zero := by
          rcases Classical.em (lbit other.data p = !zero) with h | h
          · exact h
          · exact absurd (e1.mpr h) hb
        rw [Nat.min_eq_left (by omega)]
        by_cases hk : C other.data (!zero) p ≠ k
        · rw [if_pos hk]
          refine ⟨false, rfl, ?_⟩
          constructor
          · simp
          · intro hh; exact absurd (hh 0 p (by simp)).2 (by simpa using hk)
        · rw [if_neg hk]
          obtain ⟨b, b1, b2⟩ := ih it' (k + 1) l g2 (by simp at hf; omega)
            (fun q hq => hm q (by simp [hq]))
          refine ⟨b, b1, b2.trans ?_⟩
          constructor
          · intro hh i q hq
            cases i with
            | zero => simp at hq; subst hq; exact ⟨hb', by omega⟩
            | succ i =>
              have := hh i q (by simpa using hq)
              exact ⟨this.1, by omega⟩
          · intro hh i q hq
            have := hh (i + 1) q (by simpa using hq)
            exact ⟨this.1, by omega⟩

omit [Profile] in
theorem mem_positions_lt {b : Bool} {l : List Bool} : ∀ {p : Nat}, p ∈ positions b l → p < l.length := by
  have : ∀ (l : List Bool) (i p : Nat), p ∈ positionsFrom b i l → p < i + l.length := by
    intro l
    induction l with
    | nil => intro i p h; simp [positionsFrom] at h
    | cons x l ih =>
      intro i p h
      unfold positionsFrom at h
      by_cases hx : x = b
      · rw [if_pos hx, List.mem_cons] at h
        rcases h with h | h
        · simp; omega
        · have := ih _ _ h; simp; omega
      · rw [if_neg hx] at h
        have := ih _ _ h; simp; omega
  intro p h
  have := this l 0 p h
  omega

omit [Profile] in
theorem bits_eq_iff_lbit (h : rs.len = other.len) :
    rs.intoBitVec.bits = other.intoBitVec.bits ↔ ∀ i, i < rs.len → lbit rs.data i = lbit other.data i := by
  constructor
  · intro he i hi
    have h1 := BV.bits_getElem? rs.intoBitVec i
    have h2 := BV.bits_getElem? other.intoBitVec i
    rw [he, h2, if_pos (by simp [intoBitVec]; omega), if_pos (by simpa [intoBitVec] using hi)] at h1
    exact (Option.some.inj h1).symm
  · intro he
    exact BV.bits_ext (by simpa [intoBitVec] using h) (fun i hi => he i hi)

omit [Profile] in
theorem C_congr {d d' : List Word} {n : Nat} (h : ∀ i, i < n → lbit d i = lbit d' i) (b : Bool) :
    C d b n = C d' b n := by
  apply cnt_congr; intro i hi; rw [h i hi]

omit [Profile] in
/-- same length and same counts are necessary for equality -/
theorem ranks_of_bits_eq (h : rs.Inv) (h' : other.Inv)
    (he : rs.intoBitVec.bits = other.intoBitVec.bits) :
    rs.len = other.len ∧ rs.rank0 = other.rank0 ∧ rs.rank1 = other.rank1 := by
  have hl : rs.len = other.len := by
    have := congrArg List.length he
    simpa [intoBitVec] using this
  have hb := (bits_eq_iff_lbit hl).mp he
  refine ⟨hl, ?_, ?_⟩
  · rw [h.r0, h'.r0, ← hl]; exact C_congr hb _
  · rw [h.r1, h'.r1, ← hl]; exact C_congr hb _

theorem sparseEquals_eq (h : rs.Inv) (h' : other.Inv) (zero : Bool) :
    sparseEquals zero rs other = .ok (decide (rs.intoBitVec.bits = other.intoBitVec.bits)) := by
  have hneed := ranks_of_bits_eq h h'
  unfold sparseEquals
  by_cases hl : rs.len ≠ other.len
  · rw [if_pos hl]
    rw [decide_eq_false (fun he => hl (hneed he).1)]; rfl
  · have hl : rs.len = other.len := by simpa using hl
    rw [if_neg (by simpa using hl)]
    by_cases hr : rs.rank0 ≠ other.rank0 ∨ rs.rank1 ≠ other.rank1
    · rw [if_pos hr]
      rw [decide_eq_false (fun he => by
        have := hneed he
        rcases hr with hr | hr
        · exact hr this.2.1
        · exact hr this.2.2)]; rfl
    · rw [if_neg hr]
      have hcount : C rs.data (!zero) rs.len = C other.data (!zero) rs.len := by
        have h0 : rs.rank0 = other.rank0 := Classical.byContradiction fun hx => hr (Or.inl hx)
        have h1 : rs.rank1 = other.rank1 := Classical.byContradiction fun hx => hr (Or.inr hx)
        rw [h.r0, h'.r0] at h0
        rw [h.r1, h'.r1] at h1
        rw [← hl] at h0 h1
        cases zero
        · exact h1
        · exact h0
      obtain ⟨it, i1, i2, -⟩ := SelIter.new_rel (zero := zero) h
      rw [i1, ok_bind]
      obtain ⟨b, b1, b2⟩ := sparseLoop_eq h h' hl zero ((if zero then rs.rank0 else rs.rank1) + 1) it 0 _ i2
        (by
          rw [SelIter.length_positions_eq]
          cases zero
          · rw [if_neg (by decide), h.r1]; exact Nat.lt_succ_self _
          · rw [if_pos rfl, h.r0]; exact Nat.lt_succ_self _)
        (fun p hp => by have := mem_positions_lt hp; simpa [intoBitVec] using this)
      rw [b1]
      congr 1
      rw [Bool.eq_iff_iff, b2, decide_eq_true_iff, bits_eq_iff_lbit hl]
      constructor
      · intro hall
        have hsub := cnt_eq_of_le (f := fun j => lbit rs.data j == !zero) (g := fun j => lbit other.data j == !zero)
          rs.len (by
            intro i hi hf
            simp only [beq_iff_eq] at hf ⊢
            have hpos : (positions (!zero) rs.intoBitVec.bits)[C rs.data (!zero) i]? = some i :=
              positions_getElem? (SelIter.isSelect_of_isPos ⟨hf, rfl⟩ hi)
            exact (hall _ _ hpos).1) hcount
        intro i hi
        have := hsub i hi
        cases h1 : lbit rs.data i <;> cases h2 : lbit other.data i <;> rw [h1, h2] at this <;>
          cases zero <;> simp at this ⊢
      · intro hall i p hp
        have hpl : p < rs.len := by
          have := mem_positions_lt (List.mem_of_getElem? hp)
          simpa [intoBitVec] using this
        have hi : i < C rs.data (!zero) rs.len := by
          rw [← SelIter.length_positions_eq]
          exact (List.getElem?_eq_some_iff.mp hp).1
        obtain ⟨q, -, q2, q3⟩ := select_eq h zero hi
        have := SelIter.positions_of_pos hi q2
        rw [hp] at this
        cases this
        refine ⟨by rw [← hall p hpl]; exact q2.1, ?_⟩
        rw [← C_congr (fun j hj => hall j (by omega)), q2.2, Nat.zero_add]

omit [Profile] in
theorem any_zip_ne {a b : List Word} (h : a.length = b.length) :
    ((a.zip b).any fun p => p.1 != p.2) = true ↔ a ≠ b := by
  induction a generalizing b with
  | nil => cases b with
    | nil => simp
    | cons y b => simp at h
  | cons x a ih =>
    cases b with
    | nil => simp at h
    | cons y b =>
      have := ih (b := b) (by simpa using h)
      simp only [List.zip_cons_cons, List.any_cons, Bool.or_eq_true, this]
      by_cases hxy : x = y
      · simp [hxy]
      · simp [hxy]

omit [Profile] in
theorem fullEquals_eq (h : rs.Inv) (h' : other.Inv) :
    fullEquals rs other = .ok (decide (rs.intoBitVec.bits = other.intoBitVec.bits)) := by
  have hneed := ranks_of_bits_eq h h'
  have hwf := h.wf
  have hwf' := h'.wf
  unfold fullEquals
  by_cases hl : rs.len ≠ other.len
  · rw [if_pos hl]
    rw [decide_eq_false (fun he => hl (hneed he).1)]; rfl
  · have hl : rs.len = other.len := by simpa using hl
    rw [if_neg (by simpa using hl)]
    by_cases hr : rs.rank0 ≠ other.rank0 ∨ rs.rank1 ≠ other.rank1
    · rw [if_pos hr]
      rw [decide_eq_false (fun he => by
        have := hneed he
        rcases hr with hr | hr
        · exact hr this.2.1
        · exact hr this.2.2)]; rfl
    · rw [if_neg hr, prefixR_of_le (by omega), ok_bind, prefixR_of_le (by omega), ok_bind]
      -- full limbs equal ↔ bits below equal
      have hfull : rs.data.take (rs.len / 64) = other.data.take (rs.len / 64) ↔
          ∀ i, i < 64 * (rs.len / 64) → lbit rs.data i = lbit other.data i := by
        constructor
        · intro he i hi
          rw [← lbit_take hi, he, lbit_take hi]
        · intro he
          apply List.ext_getElem?
          intro k
          rw [List.getElem?_take, List.getElem?_take]
          by_cases hk : k < rs.len / 64
          · rw [if_pos hk, if_pos hk, List.getElem?_eq_getElem (show k < rs.data.length by omega),
              List.getElem?_eq_getElem (show k < other.data.length by omega)]
            congr 1
            apply BitVec.eq_of_getLsbD_eq
            intro j hj
            have := he (64 * k + j) (by omega)
            rw [lbit_word hj, lbit_word hj, List.getElem?_eq_getElem (show k < rs.data.length by omega),
              List.getElem?_eq_getElem (show k < other.data.length by omega)] at this
            exact this
          · rw [if_neg hk, if_neg hk]
      have hzip := any_zip_ne (a := rs.data.take (rs.len / 64)) (b := other.data.take (other.len / 64))
        (by simp; omega)
      rw [← hl] at hzip ⊢
      by_cases hz : ((rs.data.take (rs.len / 64)).zip (other.data.take (rs.len / 64))).any
          (fun p => p.1 != p.2) = true
      · rw [if_pos hz]
        rw [decide_eq_false (fun he => (hzip.mp hz) (hfull.mpr fun i hi =>
          (bits_eq_iff_lbit hl).mp he i (by omega)))]
        rfl
      · rw [if_neg hz]
        have hz' := hfull.mp (Classical.byContradiction fun hx => hz (hzip.mpr hx))
        by_cases hm : rs.len % 64 ≠ 0
        · have k1 : rs.len / 64 < rs.data.length := by omega
          have k2 : rs.len / 64 < other.data.length := by omega
          rw [if_pos hm, idx_of_lt k1, ok_bind, idx_of_lt k2, ok_bind]
          simp only [pure_eq_ok]
          congr 1
          rw [Bool.eq_iff_iff, beq_iff_eq, decide_eq_true_iff, bits_eq_iff_lbit hl]
          constructor
          · intro he i hi
            by_cases hi2 : i < 64 * (rs.len / 64)
            · exact hz' i hi2
            · have := congrArg (fun w : Word => w.getLsbD (i % 64)) he
              simp only [BitVec.getLsbD_and] at this
              rw [mask_getLsbD _ _ (by omega), decide_eq_true (show i % 64 < rs.len % 64 by omega)] at this
              simp only [Bool.and_true] at this
              have hdiv : i / 64 = rs.len / 64 := by omega
              rw [lbit_eq_of_some (by rw [hdiv]; exact List.getElem?_eq_getElem k1),
                lbit_eq_of_some (by rw [hdiv]; exact List.getElem?_eq_getElem k2)]
              exact this
          · intro he
            apply BitVec.eq_of_getLsbD_eq
            intro j hj
            rw [BitVec.getLsbD_and, BitVec.getLsbD_and, mask_getLsbD _ _ (by omega)]
            by_cases hj2 : j < rs.len % 64
            · have := he (64 * (rs.len / 64) + j) (by omega)
              rw [lbit_word hj, lbit_word hj, List.getElem?_eq_getElem k1, List.getElem?_eq_getElem k2] at this
              rw [show rs.data[rs.len / 64].getLsbD j = other.data[rs.len / 64].getLsbD j from this]
            · simp [hj2]
        · rw [if_neg hm]
          rw [decide_eq_true ((bits_eq_iff_lbit hl).mpr fun i hi => hz' i (by omega))]
          rfl

theorem eq_eq (h : rs.Inv) (h' : other.Inv) :
    rs.eq other = .ok (decide (rs.intoBitVec.bits = other.intoBitVec.bits)) := by
  unfold RsVec.eq
  split
  · split
    · exact sparseEquals_eq h h' true
    · exact sparseEquals_eq h h' false
  · exact fullEquals_eq h h'

/-! ## SIMD -/

omit [Profile] in
/-- number of `i < n` satisfying a downward closed predicate -/
theorem filter_range_prefix {p : Nat → Bool} {n k : Nat} (hk : k ≤ n)
    (h1 : ∀ i, i < k → p i = true) (h2 : ∀ i, k ≤ i → i < n → p i = false) :
    ((List.range n).filter p).length = k := by
  rw [← List.countP_eq_length_filter, ← cnt_eq_countP_range]
  obtain ⟨m, rfl⟩ := Nat.exists_eq_add_of_le hk
  rw [cnt_add, cnt_congr (g := fun _ => true) h1, cnt_true,
    cnt_eq_zero (f := fun j => p (k + j)) (fun i hi => h2 _ (by omega) (by omega)), Nat.add_zero]

omit [Profile] in
theorem isBlock_unique {zero : Bool} {r i j : Nat} (hi : IsBlock rs zero r i) (hj : IsBlock rs zero r j) :
    i = j := by
  obtain ⟨i1, i2, i3⟩ := hi
  obtain ⟨j1, j2, j3⟩ := hj
  rcases Nat.lt_trichotomy i j with h | h | h
  · have := i3 (by omega)
    have := C_mono rs.data (!zero) (i := 512 * (i + 1)) (j := 512 * j) (by omega)
    omega
  · exact h
  · have := j3 (by omega)
    have := C_mono rs.data (!zero) (i := 512 * (j + 1)) (j := 512 * i) (by omega)
    omega

omit [Profile] in
theorem loadBlocks_of_le {blocks : List Nat} {base : Nat} (h : base + 16 ≤ blocks.length) :
    loadBlocks blocks base = .ok ((blocks.take (base + 16)).drop base) := by
  unfold loadBlocks
  rw [sliceR_of_le (by omega) (by omega), ok_bind, if_neg (by simp; omega), pure_eq_ok]
  congr 1
  rw [List.take_length, List.drop_take, Nat.add_sub_cancel_left]

theorem searchBlockSimd_eq (h : rs.Inv) (zero : Bool) {r s : Nat} (hs : IsSuper rs zero r s) :
    rs.searchBlockSimd zero (r - C rs.data (!zero) (8192 * s)) (s * 16) =
      rs.searchBlock zero (r - C rs.data (!zero) (8192 * s)) (s * 16) := by
  unfold searchBlockSimd
  by_cases hb : rs.blocks.length > s * 16 + 16
  · have hsl := h.slen
    have hbl := h.blen
    obtain ⟨s1, s2, s3⟩ := hs
    have s3 := s3 (by omega)
    obtain ⟨j, j1, j2, j3⟩ := searchBlock_eq h zero ⟨s1, s2, fun _ => s3⟩
    rw [if_pos hb, loadBlocks_of_le (by omega), ok_bind, j1]
    simp only
    -- value of every key
    have hkey : ∀ i, i < 16 →
        (let z : BitVec 16 := BitVec.ofNat 16 (((rs.blocks.take (s * 16 + 16)).drop (s * 16))[i]?.getD 0)
         if zero then z else BitVec.ofNat 16 (i * 512) - z).toNat =
        C rs.data (!zero) (512 * (s * 16 + i)) - C rs.data (!zero) (8192 * s) := by
      intro i hi
      have hd : (s * 16 + i) / 16 = s := by omega
      have hget : ((rs.blocks.take (s * 16 + 16)).drop (s * 16))[i]? =
          some (C rs.data false (512 * (s * 16 + i)) - C rs.data false (8192 * s)) := by
        rw [List.getElem?_drop, List.getElem?_take, if_pos (show s * 16 + i < s * 16 + 16 by omega),
          h.bval _ (by omega), hd]
      have hw := C_window rs.data (i := 8192 * s) (j := 512 * (s * 16 + i)) (by omega)
      simp only [hget, Option.getD_some]
      cases zero with
      | true =>
        simp only [if_true, Bool.not_true, BitVec.toNat_ofNat]
        apply Nat.mod_eq_of_lt; omega
      | false =>
        simp only [Bool.false_eq_true, if_false, Bool.not_false]
        rw [BitVec.toNat_sub_of_le]
        · simp only [BitVec.toNat_ofNat]
          rw [Nat.mod_eq_of_lt (by omega), Nat.mod_eq_of_lt (by omega)]; omega
        · rw [BitVec.le_def]
          simp only [BitVec.toNat_ofNat]
          rw [Nat.mod_eq_of_lt (by omega), Nat.mod_eq_of_lt (by omega)]; omega
    have hr : (BitVec.ofNat 16 (r - C rs.data (!zero) (8192 * s))).toNat = r - C rs.data (!zero) (8192 * s) := by
      rw [BitVec.toNat_ofNat]
      apply Nat.mod_eq_of_lt
      have := C_sub_le rs.data (!zero) (i := 8192 * s) (j := 8192 * (s + 1)) (by omega)
      omega
    have hcount : (((List.range 16).map fun i =>
        (let z : BitVec 16 := BitVec.ofNat 16 (((rs.blocks.take (s * 16 + 16)).drop (s * 16))[i]?.getD 0)
         if zero then z else BitVec.ofNat 16 (i * 512) - z)).filter fun k =>
          !decide ((BitVec.ofNat 16 (r - C rs.data (!zero) (8192 * s))).ult k)).length = j - s * 16 + 1 := by
      rw [List.filter_map, List.length_map]
      have j2a := j2.2.1
      apply filter_range_prefix (by omega)
      · intro i hi
        simp only [Function.comp, BitVec.ult, hkey i (by omega), hr]
        have := C_mono rs.data (!zero) (i := 512 * (s * 16 + i)) (j := 512 * j) (by omega)
        simp; omega
      · intro i hi hi2
        simp only [Function.comp, BitVec.ult, hkey i (by omega), hr]
        have := C_mono rs.data (!zero) (i := 512 * (j + 1)) (j := 512 * (s * 16 + i)) (by omega)
        have := j2.2.2 (by omega)
        simp; omega
    rw [hcount, dassertR_true (by omega), ok_bind, pure_eq_ok, if_neg (by omega)]
    congr 1
    omega
  · rw [if_neg hb]

theorem selectSimd_eq (h : rs.Inv) (zero : Bool) (r : Nat) :
    rs.selectSimd zero r = rs.select zero r := by
  by_cases hr : r < C rs.data (!zero) rs.len
  · unfold selectSimd select
    rw [rankTotal_eq h, if_neg (by omega), if_neg (by omega)]
    obtain ⟨s, s1, s2⟩ := selectSuper_eq h zero hr
    rw [s1, ok_bind, ok_bind, superBefore_eq h zero s2.1, ok_bind, ok_bind, subR_of_le s2.2.1, ok_bind,
      ok_bind, searchBlockSimd_eq h zero s2]
  · unfold selectSimd select
    rw [rankTotal_eq h, if_pos (by omega), if_pos (by omega)]

end RsVec

namespace SelIter

variable {rs : RsVec} {zero : Bool}

theorem finish_simd (h : rs.Inv) {k : Nat} {t : Nat × Nat × Nat} (ht : Located rs zero k t) :
    finish rs zero t.1 t.2.1 t.2.2 true = finish rs zero t.1 t.2.1 t.2.2 := by
  obtain ⟨s, r, block⟩ := t
  obtain ⟨hs, hb⟩ := ht
  simp only at hs hb ⊢
  unfold finish searchBlockV
  by_cases h0 : block = 0
  · have hr : r = k - C rs.data (!zero) (8192 * s) := by
      rcases hb with ⟨_, hb⟩ | ⟨_, hb1, hb2⟩
      · exact hb
      · have : s = 0 := by omega
        rw [hb2, h0, this]
    rw [if_pos h0, if_pos h0, hr, if_pos rfl, if_neg Bool.false_ne_true, RsVec.searchBlockSimd_eq h zero hs]
  · rw [if_neg h0, if_neg h0]

theorem next_simd (h : rs.Inv) {it : SelIter} (hi : it.Inv rs zero) :
    next rs zero it true = next rs zero it := by
  unfold next
  cases hb : it.nextRankBack with
  | none => rfl
  | some x =>
    simp only
    by_cases hc : it.nextRank ≥ (if zero = true then rs.rank0 else rs.rank1) ∨ it.nextRank > x
    · rw [if_pos hc, if_pos hc]
    · rw [if_neg hc, if_neg hc]
      obtain ⟨t, t1, t2⟩ := fwdLocate_eq h (hi x hb) (by omega)
      rw [t1, ok_bind, ok_bind, finish_simd h t2]

theorem nextBack_simd (h : rs.Inv) {it : SelIter} (hi : it.Inv rs zero) :
    nextBack rs zero it true = nextBack rs zero it := by
  unfold nextBack
  cases hb : it.nextRankBack with
  | none => rfl
  | some x =>
    simp only
    by_cases hc : x < it.nextRank
    · rw [if_pos hc, if_pos hc]
    · rw [if_neg hc, if_neg hc]
      obtain ⟨t, t1, t2⟩ := bwdLocate_eq h (hi x hb)
      rw [t1, ok_bind, ok_bind, finish_simd h t2]

omit [Profile] in
theorem advanceBy_inv {it : SelIter} (hi : it.Inv rs zero) (n : Nat) : (it.advanceBy n).1.Inv rs zero :=
  (advanceBy_rel (l := ((positions (!zero) rs.intoBitVec.bits).take it.upTo).drop it.nextRank) ⟨hi, rfl⟩ n).1.1

theorem advanceBackBy_inv {it : SelIter} (hi : it.Inv rs zero) {n : Nat} {p : SelIter × Bool}
    (hw : Profile.debug = true ∨ n < it.len ∨ it.nextRankBack = none ∨ 0 < it.nextRank)
    (hp : it.advanceBackBy n = .ok p) : p.1.Inv rs zero := by
  have key : ∀ m o, m ≤ it.len → (m = it.len → it.len ≤ n) → subBack it.nextRankBack m = .ok o → SelIter.Inv rs zero { it with nextRankBack := o } := by
    intro m o hm1 hm2 ho z hz
    simp only at hz
    have hlen := len_eq it
    cases hb : it.nextRankBack with
    | none =>
      rw [hb] at ho
      cases ho
      cases hz
    | some x =>
      rw [hb] at ho
      simp only [subBack] at ho
      rw [bind_eq_ok] at ho
      obtain ⟨y, y1, y2⟩ := ho
      have hy : y ≤ x := by
        by_cases hm : m ≤ x
        · rw [subR_of_le hm] at y1
          cases y1; omega
        · rcases hw with hw | hw | hw | hw
          · rw [subR_overflow hw (by omega)] at y1
            cases y1
          · simp only [upTo, hb] at hlen; omega
          · rw [hb] at hw; cases hw
          · simp only [upTo, hb] at hlen; omega
      cases y2
      cases hz
      have hg := hi x hb
      exact ⟨by have := hg.xlt; omega, hg.lb, hg.ls, hg.lsc, hg.lbc, hg.lbb, hg.lsb,
        fun hl => Nat.lt_of_le_of_lt hy (hg.lsbc hl), fun hl => Nat.lt_of_le_of_lt hy (hg.lbbc hl)⟩
  unfold advanceBackBy at hp
  split at hp
  · rw [bind_eq_ok] at hp
    obtain ⟨o, o1, o2⟩ := hp
    cases o2
    exact key _ _ (by omega) (by omega) o1
  · rw [bind_eq_ok] at hp
    obtain ⟨o, o1, o2⟩ := hp
    cases o2
    exact key _ _ (by omega) (by omega) o1

theorem next_inv (h : rs.Inv) {it : SelIter} (hi : it.Inv rs zero) {p : SelIter × Option Nat}
    (hp : next rs zero it = .ok p) : p.1.Inv rs zero := by
  obtain ⟨it', g1, g2⟩ := next_rel h
    (l := ((positions (!zero) rs.intoBitVec.bits).take it.upTo).drop it.nextRank) ⟨hi, rfl⟩
  rw [g1] at hp
  cases hp
  exact g2.1

theorem nextBack_inv (h : rs.Inv) {it : SelIter} (hi : it.Inv rs zero) {p : SelIter × Option Nat}
    (hp : nextBack rs zero it = .ok p) : p.1.Inv rs zero := by
  obtain ⟨it', g1, g2⟩ := nextBack_rel h
    (l := ((positions (!zero) rs.intoBitVec.bits).take it.upTo).drop it.nextRank) ⟨hi, rfl⟩
  rw [g1] at hp
  cases hp
  exact g2.1

theorem nth_simd (h : rs.Inv) {it : SelIter} (hi : it.Inv rs zero) (n : Nat) :
    nth rs zero it n true = nth rs zero it n ∧ ∀ p, nth rs zero it n = .ok p → p.1.Inv rs zero := by
  have ha := advanceBy_inv hi n
  unfold nth
  cases hb : it.advanceBy n with
  | mk it1 ok =>
    rw [hb] at ha
    cases ok with
    | true => exact ⟨next_simd h ha, fun p hp => next_inv h ha hp⟩
    | false => exact ⟨rfl, fun p hp => by cases hp; exact ha⟩

theorem nthBack_simd (h : rs.Inv) {it : SelIter} (hi : it.Inv rs zero) (n : Nat)
    (hw : Profile.debug = true ∨ n < it.len ∨ it.nextRankBack = none ∨ 0 < it.nextRank) :
    nthBack rs zero it n true = nthBack rs zero it n ∧
      ∀ p, nthBack rs zero it n = .ok p → p.1.Inv rs zero := by
  unfold nthBack
  cases hb : it.advanceBackBy n with
  | error e => exact ⟨rfl, fun p hp => by cases hp⟩
  | ok p =>
    have ha := advanceBackBy_inv hi hw hb
    obtain ⟨it1, ok⟩ := p
    rw [ok_bind, ok_bind]
    cases ok with
    | true =>
      simp only [if_true]
      exact ⟨nextBack_simd h ha, fun p hp => nextBack_inv h ha hp⟩
    | false =>
      simp only [Bool.false_eq_true, if_false]
      exact ⟨trivial, fun p hp => by cases hp; exact ha⟩

theorem last_simd (h : rs.Inv) {it : SelIter} (hi : it.Inv rs zero) :
    last rs zero it true = last rs zero it := by
  unfold last
  by_cases h0 : it.len = 0
  · rw [if_pos h0, if_pos h0]
  · rw [if_neg h0, if_neg h0, (nth_simd h hi _).1]

theorem step_simd (h : rs.Inv) {it : SelIter} (hi : it.Inv rs zero) (op : Spec.IterOp)
    (hw : ∀ n, op = .nthBack n →
      Profile.debug = true ∨ n < it.len ∨ it.nextRankBack = none ∨ 0 < it.nextRank) :
    stepSimd rs zero it op = step rs zero it op ∧ ∀ p, step rs zero it op = .ok p → p.1.Inv rs zero := by
  cases op with
  | next =>
    simp only [step, stepSimd]
    rw [next_simd h hi]
    refine ⟨rfl, fun p hp => ?_⟩
    rw [bind_eq_ok] at hp
    obtain ⟨q, q1, q2⟩ := hp
    cases q2
    exact next_inv h hi q1
  | nextBack =>
    simp only [step, stepSimd]
    rw [nextBack_simd h hi]
    refine ⟨rfl, fun p hp => ?_⟩
    rw [bind_eq_ok] at hp
    obtain ⟨q, q1, q2⟩ := hp
    cases q2
    exact nextBack_inv h hi q1
  | nth n =>
    simp only [step, stepSimd]
    rw [(nth_simd h hi n).1]
    refine ⟨rfl, fun p hp => ?_⟩
    rw [bind_eq_ok] at hp
    obtain ⟨q, q1, q2⟩ := hp
    cases q2
    exact (nth_simd h hi n).2 q q1
  | nthBack n =>
    simp only [step, stepSimd]
    rw [(nthBack_simd h hi n (hw n rfl)).1]
    refine ⟨rfl, fun p hp => ?_⟩
    rw [bind_eq_ok] at hp
    obtain ⟨q, q1, q2⟩ := hp
    cases q2
    exact (nthBack_simd h hi n (hw n rfl)).2 q q1
  | len =>
    refine ⟨rfl, fun p hp => ?_⟩
    cases hp
    exact hi

theorem execute_simd (hd : Profile.debug = true) (h : rs.Inv) : ∀ (ops : List Spec.IterOp) (it : SelIter), it.Inv rs zero →
    Spec.execute (stepSimd rs zero) it ops = Spec.execute (step rs zero) it ops
  | [], _, _ => rfl
  | op :: ops, it, hi => by
    obtain ⟨h1, h2⟩ := step_simd h hi op (fun _ _ => Or.inl hd)
    simp only [Spec.execute]
    rw [h1]
    cases hs : step rs zero it op with
    | error e => rfl
    | ok p => rw [ok_bind, ok_bind, execute_simd hd h ops p.1 (h2 p hs)]

end SelIter

namespace RsVec

theorem sparseLoop_simd {rs : RsVec} (h : rs.Inv) (other : RsVec) (zero : Bool) : ∀ (fuel : Nat) (it : SelIter)
    (k : Nat), it.Inv rs zero →
      sparseLoop rs other zero true fuel it k = sparseLoop rs other zero false fuel it k
  | 0, _, _, _ => rfl
  | fuel + 1, it, k, hi => by
    unfold sparseLoop
    rw [SelIter.next_simd h hi]
    cases hn : it.next rs zero with
    | error e => rfl
    | ok p =>
      rw [ok_bind, ok_bind]
      simp only [sparseLoop_simd h other zero fuel p.1 (k + 1) (SelIter.next_inv h hi hn)]

theorem sparseEquals_simd {rs : RsVec} (h : rs.Inv) (other : RsVec) (zero : Bool) :
    sparseEquals zero rs other true = sparseEquals zero rs other := by
  unfold sparseEquals
  obtain ⟨it, i1, i2, -⟩ := SelIter.new_rel (zero := zero) h
  rw [i1, ok_bind, ok_bind, sparseLoop_simd h other zero _ it 0 i2.1]

theorem eq_simd {rs : RsVec} (h : rs.Inv) (other : RsVec) : eq rs other true = eq rs other := by
  unfold eq
  rw [sparseEquals_simd h, sparseEquals_simd h]

end RsVec
end Vers
