import Verif.Proofs.MmtBuild

set_option linter.unusedSimpArgs false

/-! # Searches in the min-max tree -/

namespace Vers

variable [Profile]
open Spec

namespace MMT

omit [Profile] in
theorem log2Ceil_unique {n K : Nat} (hK : 1 ≤ K) (h1 : 2 ^ (K - 1) < n) (h2 : n ≤ 2 ^ K) :
    log2Ceil n = K := by
  have a := log2Ceil_le n
  rcases Nat.lt_trichotomy (log2Ceil n) K with h | h | h
  · have : 2 ^ log2Ceil n ≤ 2 ^ (K - 1) := Nat.pow_le_pow_right (by omega) (by omega)
    omega
  · exact h
  · have := lt_of_lt_log2Ceil h
    omega

section
variable {b : List Bool} {bs K L : Nat} {t : MMT}

omit [Profile] in
theorem two_pow_K (h : Ok b bs K L t.nodes) : 2 ^ K = 2 * 2 ^ (K - 1) ∧ 0 < 2 ^ (K - 1) := by
  have := h.hK
  refine ⟨?_, Nat.pow_pos (by omega)⟩
  rw [show K = (K - 1) + 1 by omega, Nat.pow_succ, Nat.add_sub_cancel]; omega

theorem firstLeaf_eq (h : Ok b bs K L t.nodes) : t.firstLeaf = .ok (2 ^ K - 1) := by
  obtain ⟨p1, p0⟩ := two_pow_K h
  have h1 := h.hL
  have hl := h.len
  unfold firstLeaf
  rw [dassertR_true (by omega), ok_bind]
  by_cases h2 : t.nodes.length = 2
  · rw [if_pos h2]
    have : 2 ^ K - 1 = 1 := by omega
    rw [this]; rfl
  · rw [if_neg h2]
    have hL2 : 2 ≤ L := by
      apply Classical.byContradiction
      intro hc
      have : K = 1 := h.hL4 (by omega)
      subst this
      omega
    have h5 := h.hL5 hL2
    have h6 := h.hL2
    unfold nextPow2
    rw [log2Ceil_unique (K := K) h.hK (by omega) (by omega), subR_of_le (by omega)]

theorem isLeaf_eq (h : Ok b bs K L t.nodes) (x : Nat) : t.isLeaf x = .ok (decide (2 ^ K - 1 ≤ x)) := by
  unfold isLeaf
  rw [firstLeaf_eq h, ok_bind]; rfl

omit [Profile] in
theorem cell (h : Ok b bs K L t.nodes) {x : Nat} (hx : x < t.nodes.length) :
    idx t.nodes x = .ok (segNode (sec b (lo K bs x) (hi K bs x))) :=
  idx_of_some (h.cells x hx)

omit [Profile] in
theorem inRange_eq (h : Ok b bs K L t.nodes) {x : Nat} (hx : x < t.nodes.length) (e : Int) :
    t.inRange x e = .ok (decide (minPre (sec b (lo K bs x) (hi K bs x)) ≤ e ∧
      e ≤ maxPre (sec b (lo K bs x) (hi K bs x)))) := by
  unfold inRange minExcess maxExcess
  rw [cell h hx]
  simp only [ok_bind, pure_eq_ok, segNode]
  by_cases h1 : minPre (sec b (lo K bs x) (hi K bs x)) ≤ e
  · rw [if_pos h1]; simp [h1]
  · rw [if_neg h1]; simp [h1]

omit [Profile] in
theorem totalExcess_eq (h : Ok b bs K L t.nodes) {x : Nat} (hx : x < t.nodes.length) :
    t.totalExcess x = .ok (excess (sec b (lo K bs x) (hi K bs x))) := by
  unfold totalExcess
  rw [cell h hx]; rfl

omit [Profile] in
/-- Cells that begin inside the sequence exist. -/
theorem exists_cell (h : Ok b bs K L t.nodes) {y : Nat} (hy : y ≤ 2 * (2 ^ K - 1))
    (hlo : lo K bs y < b.length) : y < t.nodes.length := by
  rw [h.len]
  apply Classical.byContradiction
  intro hc
  have h1 := h.hL2
  obtain ⟨p1, p0⟩ := two_pow_K h
  rw [show y = 2 ^ K - 1 + (y - (2 ^ K - 1)) by omega, lo_leaf (by omega)] at hlo
  have h2 := h.cover
  have : L * bs ≤ (y - (2 ^ K - 1)) * bs := Nat.mul_le_mul_right _ (by omega)
  omega

omit [Profile] in
theorem lo_lt_hi (h : Ok b bs K L t.nodes) {x : Nat} (hx : x < t.nodes.length) :
    lo K bs x < hi K bs x := by
  have h0 := h.bs_pos
  by_cases hi : x < 2 ^ K - 1
  · have h1 := lo_lt_mid (K := K) (bs := bs) h0 hi
    have h2 := mid_lt_hi (K := K) (bs := bs) h0 hi
    omega
  · have h1 := h.len
    have h2 := h.hL2
    rw [show x = 2 ^ K - 1 + (x - (2 ^ K - 1)) by omega, lo_leaf (by omega), hi_leaf (by omega)]
    exact Nat.mul_lt_mul_of_pos_right (by omega) h0

omit [Profile] in
theorem sec_natAbs (b : List Bool) (a c : Nat) : (excess (sec b a c)).natAbs ≤ min c b.length - a := by
  have := excess_natAbs_le (sec b a c)
  rwa [length_sec] at this

/-- Block `j` is the first one, from position `p` on, in which relative excess `rel` occurs; `rel'` is the
excess relative to the start of the block. -/
def FwdBlock (b : List Bool) (bs L p : Nat) (rel : Int) (j : Nat) (rel' : Int) : Prop :=
  j < L ∧ p ≤ j * bs ∧ firstExc (sec b p (j * bs)) rel = none ∧ rel' = rel - excess (sec b p (j * bs)) ∧
    (firstExc (sec b (j * bs) ((j + 1) * bs)) rel').isSome = true

omit [Profile] in
theorem FwdBlock.extend {p m : Nat} {rel rel' : Int} {j : Nat} (hpm : p ≤ m)
    (h0 : firstExc (sec b p m) rel = none)
    (h : FwdBlock b bs L m (rel - excess (sec b p m)) j rel') : FwdBlock b bs L p rel j rel' := by
  obtain ⟨h1, h2, h3, h4, h5⟩ := h
  have e := sec_append b hpm h2
  refine ⟨h1, by omega, ?_, ?_, h5⟩
  · rw [← e, firstExc_append_none h0, h3]; rfl
  · rw [h4, ← e, excess_append]; omega

omit [Profile] in
theorem firstExc_split {p m c : Nat} {rel : Int} (hpm : p ≤ m) (hmc : m ≤ c)
    (h0 : firstExc (sec b p m) rel = none) :
    firstExc (sec b p c) rel =
      (firstExc (sec b m c) (rel - excess (sec b p m))).map (· + (sec b p m).length) := by
  rw [← sec_append b hpm hmc, firstExc_append_none h0]

theorem fwdDown_eq (h : Ok b bs K L t.nodes) :
    ∀ (fuel x : Nat) (rel : Int), x < t.nodes.length → t.nodes.length - x < fuel →
      rel.natAbs + (b.length - lo K bs x) ≤ 9223372036854775807 →
      (firstExc (sec b (lo K bs x) (hi K bs x)) rel).isSome = true →
      ∃ j rel', t.fwdDown fuel x rel = .ok (some (2 ^ K - 1 + j, rel')) ∧
        FwdBlock b bs L (lo K bs x) rel j rel' := by
  intro fuel
  induction fuel with
  | zero => intro x rel hx hf; omega
  | succ fuel ih =>
    intro x rel hx hf hs hsome
    obtain ⟨p1, p0⟩ := two_pow_K h
    have hlen := h.len
    have hL2 := h.hL2
    rw [fwdDown, dassertR_true hx, ok_bind, isLeaf_eq h, ok_bind]
    by_cases hleaf : 2 ^ K - 1 ≤ x
    · obtain ⟨j, rfl⟩ : ∃ j, x = 2 ^ K - 1 + j := ⟨x - (2 ^ K - 1), by omega⟩
      rw [if_pos (by simp)]
      rw [lo_leaf (by omega), hi_leaf (by omega)] at hsome
      refine ⟨j, rel, ?_, by omega, ?_, ?_, ?_, hsome⟩
      · rw [nonZero, if_neg (by omega)]; rfl
      · rw [lo_leaf (by omega)]
      · rw [lo_leaf (by omega), sec_self]; rfl
      · rw [lo_leaf (by omega), sec_self]; simp
    · rw [if_neg (by simpa using hleaf)]
      have hxi : x < 2 ^ K - 1 := by omega
      have m1 := lo_lt_mid (K := K) (bs := bs) h.bs_pos hxi
      have m2 := mid_lt_hi (K := K) (bs := bs) h.bs_pos hxi
      have hne : sec b (lo K bs x) (hi K bs x) ≠ [] := by
        intro h0; rw [h0] at hsome; simp [firstExc] at hsome
      have hlob : lo K bs x < b.length := by
        apply Classical.byContradiction; intro hc
        exact hne (sec_nil (by omega))
      have hl : 2 * x + 1 < t.nodes.length := exists_cell h (by omega) (by rw [lo_left]; exact hlob)
      have hlc : t.leftChild x = some (2 * x + 1) := by
        unfold leftChild nonZero
        rw [show x * 2 + 1 = 2 * x + 1 by omega, if_pos hl, if_neg (by omega)]
      rw [hlc]
      simp only []
      rw [inRange_eq h hl, ok_bind]
      have hnel : sec b (lo K bs (2 * x + 1)) (hi K bs (2 * x + 1)) ≠ [] := by
        rw [lo_left, hi_left]; exact sec_ne_nil m1 hlob
      by_cases c1 : minPre (sec b (lo K bs (2 * x + 1)) (hi K bs (2 * x + 1))) ≤ rel ∧
          rel ≤ maxPre (sec b (lo K bs (2 * x + 1)) (hi K bs (2 * x + 1)))
      · rw [if_pos (by simpa using c1)]
        obtain ⟨j, rel', g1, g2⟩ := ih (2 * x + 1) rel hl (by omega) (by rw [lo_left]; exact hs)
          ((firstExc_isSome hnel rel).mpr c1)
        rw [lo_left] at g2
        exact ⟨j, rel', g1, g2⟩
      · rw [if_neg (by simpa using c1)]
        have hnone := (firstExc_eq_none hnel rel).mpr c1
        rw [lo_left, hi_left] at hnone
        rw [firstExc_split (by omega) (Nat.le_of_lt m2) hnone, Option.isSome_map] at hsome
        have hmb : lo K bs (2 * x + 2) < b.length := by
          apply Classical.byContradiction; intro hc
          rw [sec_nil (a := lo K bs (2 * x + 2)) (by omega)] at hsome
          simp [firstExc] at hsome
        have hr : 2 * x + 2 < t.nodes.length := exists_cell h (by omega) hmb
        have hrc : t.rightChild x = some (2 * x + 2) := by
          unfold rightChild nonZero
          rw [show x * 2 + 2 = 2 * x + 2 by omega, if_pos hr, if_neg (by omega)]
        rw [hrc]
        simp only []
        have hab := sec_natAbs b (lo K bs x) (lo K bs (2 * x + 2))
        rw [totalExcess_eq h hl, ok_bind, lo_left, hi_left, subI_of (by omega), ok_bind, inRange_eq h hr, ok_bind]
        have hner : sec b (lo K bs (2 * x + 2)) (hi K bs (2 * x + 2)) ≠ [] := by
          rw [hi_right hxi]; exact sec_ne_nil m2 hmb
        have hsome' : (firstExc (sec b (lo K bs (2 * x + 2)) (hi K bs (2 * x + 2)))
            (rel - excess (sec b (lo K bs x) (lo K bs (2 * x + 2))))).isSome = true := by
          rw [hi_right hxi]; exact hsome
        rw [if_pos (by simpa using (firstExc_isSome hner _).mp hsome')]
        obtain ⟨j, rel', g1, g2⟩ := ih (2 * x + 2) _ hr (by omega) (by omega) hsome'
        exact ⟨j, rel', g1, g2.extend (by omega) hnone⟩

/-- What the forward search returns, from position `p` on. -/
def FwdRes (b : List Bool) (bs K L p : Nat) (rel : Int) (o : Option (Nat × Int)) : Prop :=
  (o = none ∧ firstExc (b.drop p) rel = none) ∨
    ∃ j rel', o = some (2 ^ K - 1 + j, rel') ∧ FwdBlock b bs L p rel j rel'

omit [Profile] in
theorem FwdRes.extend {p m : Nat} {rel : Int} {o : Option (Nat × Int)} (hpm : p ≤ m)
    (h0 : firstExc (sec b p m) rel = none)
    (h : FwdRes b bs K L m (rel - excess (sec b p m)) o) : FwdRes b bs K L p rel o := by
  rcases h with ⟨h1, h2⟩ | ⟨j, rel', h1, h2⟩
  · left
    refine ⟨h1, ?_⟩
    by_cases hm : m ≤ b.length
    · rw [← sec_end (a := m) (Nat.le_refl b.length)] at h2
      rw [← sec_end (a := p) (Nat.le_refl b.length), firstExc_split hpm hm h0, h2]; rfl
    · rw [← sec_end (a := p) (by omega : b.length ≤ m)]; exact h0
  · exact Or.inr ⟨j, rel', h1, h2.extend hpm h0⟩

omit [Profile] in
theorem fwdRes_end {p : Nat} {rel : Int} (h : b.length ≤ p) : FwdRes b bs K L p rel none :=
  Or.inl ⟨rfl, by rw [List.drop_of_length_le h]; rfl⟩

omit [Profile] in
theorem parent_eq {x : Nat} (hx : x < t.nodes.length) :
    t.parent x = some ((x - 1) / 2) := by
  unfold parent; rw [if_pos hx]

theorem fwdUp_eq (h : Ok b bs K L t.nodes) :
    ∀ (fuel x : Nat) (rel : Int), x < t.nodes.length → 0 < x → x < fuel → (rel ≠ 0 ∨ hi K bs x < b.length) →
      rel.natAbs + (b.length - hi K bs x) ≤ 9223372036854775807 →
      ∃ o, t.fwdUp (t.nodes.length + 1) fuel x rel = .ok o ∧ FwdRes b bs K L (hi K bs x) rel o := by
  intro fuel
  induction fuel with
  | zero => intro x rel _ _ hf; omega
  | succ fuel ih =>
    intro x rel hx hx0 hf hr0 hs
    obtain ⟨p1, p0⟩ := two_pow_K h
    have hlen := h.len
    have hL2 := h.hL2
    have hcov : b.length ≤ 2 ^ K * bs :=
      Nat.le_trans h.cover (Nat.mul_le_mul_right _ hL2)
    rw [fwdUp, dassertR_true hx, ok_bind]
    by_cases hodd : x % 2 = 1
    · obtain ⟨p, rfl⟩ : ∃ p, x = 2 * p + 1 := ⟨x / 2, by omega⟩
      rw [if_neg (by simp [isLeftChild])]
      have hpi : p < 2 ^ K - 1 := by omega
      have m2 := mid_lt_hi (K := K) (bs := bs) h.bs_pos hpi
      rw [hi_left] at hs hr0 ⊢
      unfold rightSibling
      rw [if_pos hodd]
      by_cases hrs : 2 * p + 1 + 1 ≥ t.nodes.length
      · rw [if_pos hrs]
        refine ⟨none, rfl, fwdRes_end ?_⟩
        apply Classical.byContradiction
        intro hc
        have := exists_cell h (y := 2 * p + 2) (by omega) (by omega)
        omega
      · rw [if_neg hrs]
        simp only []
        have hr : 2 * p + 2 < t.nodes.length := by omega
        rw [inRange_eq h hr, ok_bind]
        have hmiss_or : (firstExc (sec b (lo K bs (2 * p + 2)) (hi K bs (2 * p + 2))) rel).isSome = true ↔
            (minPre (sec b (lo K bs (2 * p + 2)) (hi K bs (2 * p + 2))) ≤ rel ∧
              rel ≤ maxPre (sec b (lo K bs (2 * p + 2)) (hi K bs (2 * p + 2)))) := by
          by_cases hnil : sec b (lo K bs (2 * p + 2)) (hi K bs (2 * p + 2)) = []
          · have hr0' : rel ≠ 0 := by
              rcases hr0 with hr0 | hr0
              · exact hr0
              · exact absurd hnil (by rw [hi_right hpi]; exact sec_ne_nil m2 hr0)
            rw [hnil]; simp [firstExc, minPre, maxPre]; omega
          · exact firstExc_isSome hnil rel
        by_cases c1 : minPre (sec b (lo K bs (2 * p + 2)) (hi K bs (2 * p + 2))) ≤ rel ∧
              rel ≤ maxPre (sec b (lo K bs (2 * p + 2)) (hi K bs (2 * p + 2)))
        · rw [if_pos (by simpa using c1)]
          obtain ⟨j, rel', g1, g2⟩ := fwdDown_eq h (t.nodes.length + 1) (2 * p + 2) rel hr (by omega) hs
            (hmiss_or.mpr c1)
          exact ⟨_, g1, Or.inr ⟨j, rel', rfl, g2⟩⟩
        · rw [if_neg (by simpa using c1), parent_eq hx, unwrapR_some, ok_bind,
            show (2 * p + 1 - 1) / 2 = p by omega]
          have hnone : firstExc (sec b (lo K bs (2 * p + 2)) (hi K bs p)) rel = none := by
            rw [← hi_right hpi]
            cases hc : firstExc (sec b (lo K bs (2 * p + 2)) (hi K bs (2 * p + 2))) rel with
            | none => rfl
            | some m => exact absurd (hmiss_or.mp (by rw [hc]; rfl)) c1
          by_cases hp0 : p = 0
          · subst hp0
            rw [nonZero, if_pos rfl]
            refine ⟨none, rfl, FwdRes.extend (Nat.le_of_lt m2) hnone (fwdRes_end ?_)⟩
            rw [hi_root]; exact hcov
          · rw [nonZero, if_neg hp0]
            simp only []
            have hab := sec_natAbs b (lo K bs (2 * p + 2)) (hi K bs p)
            rw [totalExcess_eq h hr, ok_bind, hi_right hpi, subI_of (by omega), ok_bind]
            have hne0 : rel - excess (sec b (lo K bs (2 * p + 2)) (hi K bs p)) ≠ 0 := by
              intro h0
              apply c1
              rw [hi_right hpi]
              have e1 := minPre_le_excess (sec b (lo K bs (2 * p + 2)) (hi K bs p))
              have e2 := excess_le_maxPre (sec b (lo K bs (2 * p + 2)) (hi K bs p))
              omega
            obtain ⟨o, g1, g2⟩ := ih p _ (by omega) (by omega) (by omega) (Or.inl hne0) (by omega)
            exact ⟨o, g1, g2.extend (Nat.le_of_lt m2) hnone⟩
    · obtain ⟨p, rfl⟩ : ∃ p, x = 2 * p + 2 := ⟨x / 2 - 1, by omega⟩
      have hpi : p < 2 ^ K - 1 := by omega
      rw [if_pos (by simp [isLeftChild]), parent_eq hx, unwrapR_some, ok_bind,
        show (2 * p + 2 - 1) / 2 = p by omega]
      rw [hi_right hpi] at hs hr0 ⊢
      by_cases hp0 : p = 0
      · subst hp0
        rw [nonZero, if_pos rfl]
        exact ⟨none, rfl, fwdRes_end (by rw [hi_root]; exact hcov)⟩
      · rw [nonZero, if_neg hp0]
        exact ih p rel (by omega) (by omega) (by omega) hr0 hs

/-- Forward search over the blocks. -/
theorem fwdSearch_eq (h : Ok b bs K L t.nodes) {q : Nat} (hq : q < L) {rel : Int}
    (hr0 : rel ≠ 0 ∨ (q + 1) * bs < b.length)
    (hs : rel.natAbs + (b.length - (q + 1) * bs) ≤ 9223372036854775807) :
    ∃ o, t.fwdSearch q rel = .ok o ∧
      ((o = none ∧ firstExc (b.drop ((q + 1) * bs)) rel = none) ∨
        ∃ j rel', o = some (j, rel') ∧ FwdBlock b bs L ((q + 1) * bs) rel j rel') := by
  have hlen := h.len
  have hL2 := h.hL2
  obtain ⟨p1, p0⟩ := two_pow_K h
  unfold fwdSearch
  rw [firstLeaf_eq h, ok_bind, if_neg (by omega), nonZero, if_neg (by omega), unwrapR_some, ok_bind,
    Nat.add_comm q]
  have hh : hi K bs (2 ^ K - 1 + q) = (q + 1) * bs := hi_leaf (by omega)
  obtain ⟨o, g1, g2⟩ := fwdUp_eq h (t.nodes.length + 1) (2 ^ K - 1 + q) rel (by omega) (by omega) (by omega)
    (by rw [hh]; exact hr0) (by rw [hh]; exact hs)
  rw [hh] at g2
  rw [g1, ok_bind]
  rcases g2 with ⟨rfl, g3⟩ | ⟨j, rel', rfl, g3⟩
  · exact ⟨none, rfl, Or.inl ⟨rfl, g3⟩⟩
  · refine ⟨some (j, rel'), ?_, Or.inr ⟨j, rel', rfl, g3⟩⟩
    unfold toBlock
    simp only []
    rw [subR_of_le (by omega), Nat.add_sub_cancel_left]; rfl

/-! ## Backward -/

theorem inRangeBwd_eq (h : Ok b bs K L t.nodes) {x : Nat} (hx : x < t.nodes.length)
    (hne : sec b (lo K bs x) (hi K bs x) ≠ []) {e : Int} (he : e ≠ 0)
    (hs : e.natAbs + hi K bs x ≤ 9223372036854775807) :
    t.inRangeBwd x e = .ok (firstExc (sec b (lo K bs x) (hi K bs x)).reverse (-e)).isSome := by
  unfold inRangeBwd
  have hab := sec_natAbs b (lo K bs x) (hi K bs x)
  rw [totalExcess_eq h hx, ok_bind, addI_of (by omega), ok_bind, inRange_eq h hx, Bool.eq_iff_iff.mpr
    (firstExc_reverse_isSome hne he |>.trans (Bool.decide_iff _).symm)]
  by_cases h0 : e + excess (sec b (lo K bs x) (hi K bs x)) = 0
  · rw [if_pos h0]; simp [h0]
  · rw [if_neg h0]; simp [h0]

/-- Block `j` is the first one, from position `p` backwards, in which relative excess `-rel` occurs;
`rel'` is the excess relative to the end of the block. -/
def BwdBlock (b : List Bool) (bs L p : Nat) (rel : Int) (j : Nat) (rel' : Int) : Prop :=
  j < L ∧ (j + 1) * bs ≤ p ∧ firstExc (sec b ((j + 1) * bs) p).reverse (-rel) = none ∧
    rel' = rel + excess (sec b ((j + 1) * bs) p) ∧
    (firstExc (sec b (j * bs) ((j + 1) * bs)).reverse (-rel')).isSome = true

omit [Profile] in
theorem firstExc_rsplit {p m c : Nat} {rel : Int} (hpm : p ≤ m) (hmc : m ≤ c)
    (h0 : firstExc (sec b m c).reverse (-rel) = none) :
    firstExc (sec b p c).reverse (-rel) =
      (firstExc (sec b p m).reverse (-(rel + excess (sec b m c)))).map (· + (sec b m c).length) := by
  rw [← sec_append b hpm hmc, List.reverse_append, firstExc_append_none h0, excess_reverse, List.length_reverse,
    show -rel - excess (sec b m c) = -(rel + excess (sec b m c)) by omega]

omit [Profile] in
theorem BwdBlock.extend {p m : Nat} {rel rel' : Int} {j : Nat} (hpm : m ≤ p)
    (h0 : firstExc (sec b m p).reverse (-rel) = none)
    (h : BwdBlock b bs L m (rel + excess (sec b m p)) j rel') : BwdBlock b bs L p rel j rel' := by
  obtain ⟨h1, h2, h3, h4, h5⟩ := h
  refine ⟨h1, by omega, ?_, ?_, h5⟩
  · rw [firstExc_rsplit h2 hpm h0, h3]; rfl
  · rw [h4, ← sec_append b h2 hpm, excess_append]; omega

omit [Profile] in
theorem ne_zero_of_rnone {a c : Nat} {rel : Int} (hr : rel ≠ 0)
    (h0 : firstExc (sec b a c).reverse (-rel) = none) : rel + excess (sec b a c) ≠ 0 := by
  intro h
  by_cases hn : sec b a c = []
  · rw [hn] at h; simp at h; exact hr h
  · have := (firstExc_reverse_isSome hn hr).mpr (Or.inl h)
    rw [h0] at this; simp at this

theorem bwdDown_eq (h : Ok b bs K L t.nodes) :
    ∀ (fuel x : Nat) (rel : Int), x < t.nodes.length → t.nodes.length - x < fuel → rel ≠ 0 →
      hi K bs x ≤ b.length → rel.natAbs + hi K bs x ≤ 9223372036854775807 →
      (firstExc (sec b (lo K bs x) (hi K bs x)).reverse (-rel)).isSome = true →
      ∃ j rel', t.bwdDown fuel x rel = .ok (some (2 ^ K - 1 + j, rel')) ∧
        BwdBlock b bs L (hi K bs x) rel j rel' := by
  intro fuel
  induction fuel with
  | zero => intro x rel hx hf; omega
  | succ fuel ih =>
    intro x rel hx hf hr0 hhb hs hsome
    obtain ⟨p1, p0⟩ := two_pow_K h
    have hlen := h.len
    have hL2 := h.hL2
    rw [bwdDown, dassertR_true hx, ok_bind, isLeaf_eq h, ok_bind]
    by_cases hleaf : 2 ^ K - 1 ≤ x
    · obtain ⟨j, rfl⟩ : ∃ j, x = 2 ^ K - 1 + j := ⟨x - (2 ^ K - 1), by omega⟩
      rw [if_pos (by simp)]
      rw [lo_leaf (by omega), hi_leaf (by omega)] at hsome
      refine ⟨j, rel, ?_, by omega, ?_, ?_, ?_, hsome⟩
      · rw [nonZero, if_neg (by omega)]; rfl
      · rw [hi_leaf (by omega)]
      · rw [hi_leaf (by omega), sec_self]; rfl
      · rw [hi_leaf (by omega), sec_self]; simp
    · rw [if_neg (by simpa using hleaf)]
      have hxi : x < 2 ^ K - 1 := by omega
      have m1 := lo_lt_mid (K := K) (bs := bs) h.bs_pos hxi
      have m2 := mid_lt_hi (K := K) (bs := bs) h.bs_pos hxi
      have hl : 2 * x + 1 < t.nodes.length := exists_cell h (by omega) (by rw [lo_left]; omega)
      have hr : 2 * x + 2 < t.nodes.length := exists_cell h (by omega) (by omega)
      have hlc : t.leftChild x = some (2 * x + 1) := by
        unfold leftChild nonZero
        rw [show x * 2 + 1 = 2 * x + 1 by omega, if_pos hl, if_neg (by omega)]
      have hrc : t.rightChild x = some (2 * x + 2) := by
        unfold rightChild nonZero
        rw [show x * 2 + 2 = 2 * x + 2 by omega, if_pos hr, if_neg (by omega)]
      rw [hrc]
      simp only []
      have hhr := hi_right (K := K) (bs := bs) hxi
      have hner : sec b (lo K bs (2 * x + 2)) (hi K bs (2 * x + 2)) ≠ [] := by
        rw [hhr]; exact sec_ne_nil m2 (by omega)
      rw [inRangeBwd_eq h hr hner hr0 (by omega), ok_bind]
      by_cases c1 : (firstExc (sec b (lo K bs (2 * x + 2)) (hi K bs (2 * x + 2))).reverse (-rel)).isSome = true
      · rw [if_pos c1]
        obtain ⟨j, rel', g1, g2⟩ := ih (2 * x + 2) rel hr (by omega) hr0 (by omega) (by omega) c1
        rw [hhr] at g2
        exact ⟨j, rel', g1, g2⟩
      · rw [if_neg c1, hlc]
        simp only []
        have hnone : firstExc (sec b (lo K bs (2 * x + 2)) (hi K bs x)).reverse (-rel) = none := by
          rw [hhr] at c1; simpa using c1
        rw [firstExc_rsplit (Nat.le_of_lt m1) (Nat.le_of_lt m2) hnone, Option.isSome_map] at hsome
        have hab := sec_natAbs b (lo K bs (2 * x + 2)) (hi K bs x)
        have hn0 := ne_zero_of_rnone hr0 hnone
        have hhl := hi_left (K := K) (bs := bs) x
        have hll := lo_left (K := K) (bs := bs) x
        have hnel : sec b (lo K bs (2 * x + 1)) (hi K bs (2 * x + 1)) ≠ [] := by
          rw [hll, hhl]; exact sec_ne_nil m1 (by omega)
        have hsome' : (firstExc (sec b (lo K bs (2 * x + 1)) (hi K bs (2 * x + 1))).reverse
            (-(rel + excess (sec b (lo K bs (2 * x + 2)) (hi K bs x))))).isSome = true := by
          rw [hll, hhl]; exact hsome
        rw [totalExcess_eq h hr, ok_bind, hhr, addI_of (by omega), ok_bind,
          inRangeBwd_eq h hl hnel hn0 (by omega), ok_bind, if_pos hsome']
        obtain ⟨j, rel', g1, g2⟩ := ih (2 * x + 1) _ hl (by omega) hn0 (by omega) (by omega) hsome'
        rw [hhl] at g2
        exact ⟨j, rel', g1, g2.extend (Nat.le_of_lt m2) hnone⟩

/-- What the backward search returns, from position `p` backwards. -/
def BwdRes (b : List Bool) (bs K L p : Nat) (rel : Int) (o : Option (Nat × Int)) : Prop :=
  (o = none ∧ firstExc (b.take p).reverse (-rel) = none) ∨
    ∃ j rel', o = some (2 ^ K - 1 + j, rel') ∧ BwdBlock b bs L p rel j rel'

omit [Profile] in
theorem BwdRes.extend {p m : Nat} {rel : Int} {o : Option (Nat × Int)} (hpm : m ≤ p)
    (h0 : firstExc (sec b m p).reverse (-rel) = none)
    (h : BwdRes b bs K L m (rel + excess (sec b m p)) o) : BwdRes b bs K L p rel o := by
  rcases h with ⟨h1, h2⟩ | ⟨j, rel', h1, h2⟩
  · left
    refine ⟨h1, ?_⟩
    rw [← sec_zero] at h2 ⊢
    rw [firstExc_rsplit (Nat.zero_le _) hpm h0, h2]; rfl
  · exact Or.inr ⟨j, rel', h1, h2.extend hpm h0⟩

theorem bwdUp_eq (h : Ok b bs K L t.nodes) :
    ∀ (fuel x : Nat) (rel : Int), x < t.nodes.length → 0 < x → x < fuel → rel ≠ 0 →
      lo K bs x ≤ b.length → rel.natAbs + lo K bs x ≤ 9223372036854775807 →
      ∃ o, t.bwdUp (t.nodes.length + 1) fuel x rel = .ok o ∧ BwdRes b bs K L (lo K bs x) rel o := by
  intro fuel
  induction fuel with
  | zero => intro x rel _ _ hf; omega
  | succ fuel ih =>
    intro x rel hx hx0 hf hr0 hlb hs
    obtain ⟨p1, p0⟩ := two_pow_K h
    have hlen := h.len
    have hL2 := h.hL2
    have hz : BwdRes b bs K L 0 rel none := Or.inl ⟨rfl, by simp [firstExc]⟩
    have hz' : ∀ r, BwdRes b bs K L 0 r none := fun r => Or.inl ⟨rfl, by simp [firstExc]⟩
    rw [bwdUp, dassertR_true hx, ok_bind]
    by_cases hodd : x % 2 = 1
    · obtain ⟨p, rfl⟩ : ∃ p, x = 2 * p + 1 := ⟨x / 2, by omega⟩
      rw [if_pos (by simp [isLeftChild]), parent_eq hx, unwrapR_some, ok_bind,
        show (2 * p + 1 - 1) / 2 = p by omega]
      rw [lo_left] at hs hlb ⊢
      by_cases hp0 : p = 0
      · subst hp0
        rw [nonZero, if_pos rfl, lo_root]
        exact ⟨none, rfl, hz⟩
      · rw [nonZero, if_neg hp0]
        exact ih p rel (by omega) (by omega) (by omega) hr0 hlb hs
    · obtain ⟨p, rfl⟩ : ∃ p, x = 2 * p + 2 := ⟨x / 2 - 1, by omega⟩
      have hpi : p < 2 ^ K - 1 := by omega
      have m1 := lo_lt_mid (K := K) (bs := bs) h.bs_pos hpi
      have hhl := hi_left (K := K) (bs := bs) p
      have hll := lo_left (K := K) (bs := bs) p
      rw [if_neg (by simp [isLeftChild])]
      have hls : leftSibling (2 * p + 2) = some (2 * p + 1) := by
        unfold leftSibling nonZero
        rw [if_pos (by omega), if_neg (by omega)]
        rfl
      rw [hls]
      simp only []
      have hl : 2 * p + 1 < t.nodes.length := by omega
      have hnel : sec b (lo K bs (2 * p + 1)) (hi K bs (2 * p + 1)) ≠ [] := by
        rw [hll, hhl]; exact sec_ne_nil m1 (by omega)
      rw [inRangeBwd_eq h hl hnel hr0 (by omega), ok_bind]
      by_cases c1 : (firstExc (sec b (lo K bs (2 * p + 1)) (hi K bs (2 * p + 1))).reverse (-rel)).isSome = true
      · rw [if_pos c1]
        obtain ⟨j, rel', g1, g2⟩ := bwdDown_eq h (t.nodes.length + 1) (2 * p + 1) rel hl (by omega) hr0
          (by omega) (by omega) c1
        rw [hhl] at g2
        exact ⟨_, g1, Or.inr ⟨j, rel', rfl, g2⟩⟩
      · rw [if_neg c1, parent_eq hx, unwrapR_some, ok_bind, show (2 * p + 2 - 1) / 2 = p by omega]
        have hnone : firstExc (sec b (lo K bs p) (lo K bs (2 * p + 2))).reverse (-rel) = none := by
          rw [hll, hhl] at c1; simpa using c1
        by_cases hp0 : p = 0
        · subst hp0
          rw [nonZero, if_pos rfl]
          refine ⟨none, rfl, BwdRes.extend (Nat.le_of_lt m1) hnone ?_⟩
          rw [lo_root]; exact hz' _
        · rw [nonZero, if_neg hp0]
          simp only []
          have hab := sec_natAbs b (lo K bs p) (lo K bs (2 * p + 2))
          have hn0 := ne_zero_of_rnone hr0 hnone
          rw [totalExcess_eq h hl, ok_bind, hll, hhl, addI_of (by omega), ok_bind]
          obtain ⟨o, g1, g2⟩ := ih p _ (by omega) (by omega) (by omega) hn0 (by omega) (by omega)
          exact ⟨o, g1, g2.extend (Nat.le_of_lt m1) hnone⟩

/-- Backward search over the blocks. -/
theorem bwdSearch_eq (h : Ok b bs K L t.nodes) {q : Nat} (hq : q < L) {rel : Int} (hr0 : rel ≠ 0)
    (hqb : q * bs ≤ b.length) (hs : rel.natAbs + q * bs ≤ 9223372036854775807) :
    ∃ o, t.bwdSearch q rel = .ok o ∧
      ((o = none ∧ firstExc (b.take (q * bs)).reverse (-rel) = none) ∨
        ∃ j rel', o = some (j, rel') ∧ BwdBlock b bs L (q * bs) rel j rel') := by
  have hlen := h.len
  have hL2 := h.hL2
  obtain ⟨p1, p0⟩ := two_pow_K h
  unfold bwdSearch
  rw [firstLeaf_eq h, ok_bind, if_neg (by omega), nonZero, if_neg (by omega), unwrapR_some, ok_bind,
    Nat.add_comm q]
  have hh : lo K bs (2 ^ K - 1 + q) = q * bs := lo_leaf (by omega)
  obtain ⟨o, g1, g2⟩ := bwdUp_eq h (t.nodes.length + 1) (2 ^ K - 1 + q) rel (by omega) (by omega) (by omega)
    hr0 (by omega) (by omega)
  rw [hh] at g2
  rw [g1, ok_bind]
  rcases g2 with ⟨rfl, g3⟩ | ⟨j, rel', rfl, g3⟩
  · exact ⟨none, rfl, Or.inl ⟨rfl, g3⟩⟩
  · refine ⟨some (j, rel'), ?_, Or.inr ⟨j, rel', rfl, g3⟩⟩
    unfold toBlock
    simp only []
    rw [subR_of_le (by omega), Nat.add_sub_cancel_left]; rfl

/-! ## Relative excess zero -/

/-- below an unused node the search for zero runs into `unreachable!()` -/
theorem fwdDown_unused (h : Ok b bs K L t.nodes) :
    ∀ (fuel x : Nat), x < t.nodes.length → t.nodes.length - x < fuel → b.length ≤ lo K bs x →
      t.fwdDown fuel x 0 = .error .unreachable := by
  intro fuel
  induction fuel with
  | zero => intro x hx hf; omega
  | succ fuel ih =>
    intro x hx hf hlo
    obtain ⟨p1, p0⟩ := two_pow_K h
    have hlen := h.len
    have hL := h.hL
    have hL2 := h.hL2
    have hxi : x < 2 ^ K - 1 := by
      by_contra hc
      obtain ⟨j, rfl⟩ : ∃ j, x = 2 ^ K - 1 + j := ⟨x - (2 ^ K - 1), by omega⟩
      rw [lo_leaf (by omega)] at hlo
      have := h.last
      have : j * bs ≤ (L - 1) * bs := Nat.mul_le_mul_right _ (by omega)
      omega
    rw [fwdDown, dassertR_true hx, ok_bind, isLeaf_eq h, ok_bind, if_neg (by simp; omega)]
    unfold leftChild nonZero
    rw [show x * 2 + 1 = 2 * x + 1 by omega]
    by_cases hl : 2 * x + 1 < t.nodes.length
    · rw [if_pos hl, if_neg (by omega)]
      simp only []
      rw [inRange_eq h hl, ok_bind, sec_nil (by rw [lo_left]; omega), if_pos (by simp [minPre, maxPre])]
      exact ih _ hl (by omega) (by rw [lo_left]; exact hlo)
    · rw [if_neg hl]

omit [Profile] in
theorem hi_le (h : Ok b bs K L t.nodes) {x : Nat} (hx : x < t.nodes.length) : hi K bs x ≤ 2 ^ K * bs := by
  induction x using Nat.strong_induction_on with
  | _ x ih =>
    rcases Nat.eq_zero_or_pos x with rfl | hx0
    · rw [hi_root]
    · have h1 := h.len
      have h2 := h.hL2
      by_cases hodd : x % 2 = 1
      · obtain ⟨p, rfl⟩ : ∃ p, x = 2 * p + 1 := ⟨x / 2, by omega⟩
        have := mid_lt_hi (K := K) (bs := bs) h.bs_pos (show p < 2 ^ K - 1 by omega)
        have := ih p (by omega) (by omega)
        rw [hi_left]; omega
      · obtain ⟨p, rfl⟩ : ∃ p, x = 2 * p + 2 := ⟨x / 2 - 1, by omega⟩
        rw [hi_right (by omega)]
        exact ih p (by omega) (by omega)

/-- the way up from an inner node without a block behind it -/
theorem fwdUp_unused (h : Ok b bs K L t.nodes) :
    ∀ (fuel x : Nat), x < 2 ^ K - 1 → 0 < x → x < fuel → b.length ≤ hi K bs x →
      t.fwdUp (t.nodes.length + 1) fuel x 0 = if hi K bs x = 2 ^ K * bs then .ok none else .error .unreachable := by
  intro fuel
  induction fuel with
  | zero => intro x _ _ hf; omega
  | succ fuel ih =>
    intro x hx hx0 hf hlo
    have hlen := h.len
    have hL := h.hL
    rw [fwdUp, dassertR_true (by omega), ok_bind]
    by_cases hodd : x % 2 = 1
    · obtain ⟨p, rfl⟩ : ∃ p, x = 2 * p + 1 := ⟨x / 2, by omega⟩
      have m2 := mid_lt_hi (K := K) (bs := bs) h.bs_pos (show p < 2 ^ K - 1 by omega)
      have hle := hi_le h (x := p) (by omega)
      rw [hi_left] at hlo
      rw [if_neg (by simp [isLeftChild]), if_neg (by rw [hi_left]; omega)]
      unfold rightSibling
      rw [if_pos hodd, if_neg (by omega)]
      simp only []
      rw [inRange_eq h (by omega), ok_bind, 
        sec_nil (show min (hi K bs (2 * p + 1 + 1)) b.length ≤ lo K bs (2 * p + 1 + 1) by
          rw [show 2 * p + 1 + 1 = 2 * p + 2 by omega]; omega), if_pos (by simp [minPre, maxPre])]
      exact fwdDown_unused h _ _ (by omega) (by omega) hlo
    · obtain ⟨p, rfl⟩ : ∃ p, x = 2 * p + 2 := ⟨x / 2 - 1, by omega⟩
      rw [if_pos (by simp [isLeftChild]), parent_eq (by omega), unwrapR_some, ok_bind,
        show (2 * p + 2 - 1) / 2 = p by omega]
      have hh := hi_right (K := K) (bs := bs) (x := p) (by omega)
      rw [hh] at hlo ⊢
      by_cases hp0 : p = 0
      · subst hp0
        rw [nonZero, if_pos rfl, hi_root, if_pos rfl]; rfl
      · rw [nonZero, if_neg hp0]
        exact ih p (by omega) (by omega) (by omega) hlo

/-- forward search for zero from the last block -/
theorem fwdSearch_zero (h : Ok b bs K L t.nodes) :
    t.fwdSearch (L - 1) 0 = if L % 2 = 1 ∨ L = 2 ^ K then .ok none else .error .unreachable := by
  have hlen := h.len
  have hL := h.hL
  have hL2 := h.hL2
  have hcov := h.cover
  obtain ⟨p1, p0⟩ := two_pow_K h
  unfold fwdSearch
  rw [firstLeaf_eq h, ok_bind, if_neg (by omega), nonZero, if_neg (by omega), unwrapR_some, ok_bind,
    Nat.add_comm (L - 1), fwdUp, dassertR_true (by omega), ok_bind]
  by_cases hodd : L % 2 = 1
  · rw [if_neg (by simp [isLeftChild]; omega), if_pos (Or.inl hodd)]
    unfold rightSibling
    rw [if_pos (by omega), if_pos (by omega)]; rfl
  · have hh : hi K bs (2 ^ K - 1 + (L - 1)) = L * bs := by
      rw [hi_leaf (by omega), Nat.sub_add_cancel hL]
    obtain ⟨p, hp⟩ : ∃ p, 2 ^ K - 1 + (L - 1) = 2 * p + 2 := ⟨(2 ^ K + L) / 2 - 2, by omega⟩
    rw [if_pos (by simp [isLeftChild]; omega), parent_eq (by omega), unwrapR_some, ok_bind, hp,
      show (2 * p + 2 - 1) / 2 = p by omega]
    rw [hp, hi_right (by omega)] at hh
    have hiff : hi K bs p = 2 ^ K * bs ↔ L = 2 ^ K := by
      rw [hh]
      constructor
      · intro e; exact Nat.eq_of_mul_eq_mul_right h.bs_pos e
      · intro e; rw [e]
    by_cases hp0 : p = 0
    · subst hp0
      rw [nonZero, if_pos rfl, if_pos (Or.inr (hiff.mp (hi_root K bs)))]; rfl
    · rw [nonZero, if_neg hp0]
      simp only []
      rw [fwdUp_unused h _ p (by omega) (by omega) (by omega) (by omega)]
      by_cases e : L = 2 ^ K
      · rw [if_pos (hiff.mpr e), if_pos (Or.inr e)]; rfl
      · rw [if_neg (fun hc => e (hiff.mp hc)), if_neg (by omega)]; rfl

theorem inRangeBwd_zero (h : Ok b bs K L t.nodes) {x : Nat} (hx : x < t.nodes.length)
    (hb : b.length ≤ 9223372036854775807) : t.inRangeBwd x 0 = .ok true := by
  unfold inRangeBwd
  have hab := sec_natAbs b (lo K bs x) (hi K bs x)
  rw [totalExcess_eq h hx, ok_bind, addI_of (by omega), ok_bind, inRange_eq h hx]
  have e1 := minPre_le_excess (sec b (lo K bs x) (hi K bs x))
  have e2 := excess_le_maxPre (sec b (lo K bs x) (hi K bs x))
  split
  · rfl
  · rw [decide_eq_true (by omega)]

/-- downwards, the backward search for zero always takes the right child -/
theorem bwdDown_zero (h : Ok b bs K L t.nodes) (hb : b.length ≤ 9223372036854775807) :
    ∀ (fuel x : Nat), x < t.nodes.length → t.nodes.length - x < fuel → hi K bs x ≤ b.length →
      ∃ j, t.bwdDown fuel x 0 = .ok (some (2 ^ K - 1 + j, 0)) ∧ (j + 1) * bs = hi K bs x := by
  intro fuel
  induction fuel with
  | zero => intro x hx hf; omega
  | succ fuel ih =>
    intro x hx hf hhb
    obtain ⟨p1, p0⟩ := two_pow_K h
    have hlen := h.len
    have hL2 := h.hL2
    rw [bwdDown, dassertR_true hx, ok_bind, isLeaf_eq h, ok_bind]
    by_cases hleaf : 2 ^ K - 1 ≤ x
    · obtain ⟨j, rfl⟩ : ∃ j, x = 2 ^ K - 1 + j := ⟨x - (2 ^ K - 1), by omega⟩
      rw [if_pos (by simp)]
      refine ⟨j, ?_, ?_⟩
      · rw [nonZero, if_neg (by omega)]; rfl
      · rw [hi_leaf (by omega)]
    · rw [if_neg (by simpa using hleaf)]
      have hxi : x < 2 ^ K - 1 := by omega
      have m2 := mid_lt_hi (K := K) (bs := bs) h.bs_pos hxi
      have hr : 2 * x + 2 < t.nodes.length := exists_cell h (by omega) (by omega)
      have hrc : t.rightChild x = some (2 * x + 2) := by
        unfold rightChild nonZero
        rw [show x * 2 + 2 = 2 * x + 2 by omega, if_pos hr, if_neg (by omega)]
      rw [hrc]
      simp only []
      rw [inRangeBwd_zero h hr hb, ok_bind, if_pos rfl]
      have hhr := hi_right (K := K) (bs := bs) hxi
      obtain ⟨j, j1, j2⟩ := ih (2 * x + 2) hr (by omega) (by omega)
      exact ⟨j, j1, by omega⟩

theorem bwdUp_zero (h : Ok b bs K L t.nodes) (hb : b.length ≤ 9223372036854775807) :
    ∀ (fuel x : Nat), x < t.nodes.length → 0 < x → x < fuel → lo K bs x ≤ b.length →
      (lo K bs x = 0 ∧ t.bwdUp (t.nodes.length + 1) fuel x 0 = .ok none) ∨
      ∃ j, t.bwdUp (t.nodes.length + 1) fuel x 0 = .ok (some (2 ^ K - 1 + j, 0)) ∧ (j + 1) * bs = lo K bs x := by
  intro fuel
  induction fuel with
  | zero => intro x _ _ hf; omega
  | succ fuel ih =>
    intro x hx hx0 hf hlb
    obtain ⟨p1, p0⟩ := two_pow_K h
    have hlen := h.len
    have hL2 := h.hL2
    rw [bwdUp, dassertR_true hx, ok_bind]
    by_cases hodd : x % 2 = 1
    · obtain ⟨p, rfl⟩ : ∃ p, x = 2 * p + 1 := ⟨x / 2, by omega⟩
      rw [if_pos (by simp [isLeftChild]), parent_eq hx, unwrapR_some, ok_bind,
        show (2 * p + 1 - 1) / 2 = p by omega]
      rw [lo_left] at hlb ⊢
      by_cases hp0 : p = 0
      · subst hp0
        rw [nonZero, if_pos rfl, lo_root]
        exact Or.inl ⟨rfl, rfl⟩
      · rw [nonZero, if_neg hp0]
        exact ih p (by omega) (by omega) (by omega) hlb
    · obtain ⟨p, rfl⟩ : ∃ p, x = 2 * p + 2 := ⟨x / 2 - 1, by omega⟩
      have hhl := hi_left (K := K) (bs := bs) p
      rw [if_neg (by simp [isLeftChild])]
      have hls : leftSibling (2 * p + 2) = some (2 * p + 1) := by
        unfold leftSibling nonZero
        rw [if_pos (by omega), if_neg (by omega)]
        rfl
      rw [hls]
      simp only []
      rw [inRangeBwd_zero h (by omega) hb, ok_bind, if_pos rfl]
      obtain ⟨j, j1, j2⟩ := bwdDown_zero h hb (t.nodes.length + 1) (2 * p + 1) (by omega) (by omega) (by omega)
      exact Or.inr ⟨j, j1, by omega⟩

/-- backward search for zero -/
theorem bwdSearch_zero (h : Ok b bs K L t.nodes) (hb : b.length ≤ 9223372036854775807) {q : Nat} (hq : q < L)
    (hqb : q * bs ≤ b.length) : t.bwdSearch q 0 = .ok (if q = 0 then none else some (q - 1, 0)) := by
  have hlen := h.len
  have hL2 := h.hL2
  have hbs := h.bs_pos
  obtain ⟨p1, p0⟩ := two_pow_K h
  unfold bwdSearch
  rw [firstLeaf_eq h, ok_bind, if_neg (by omega), nonZero, if_neg (by omega), unwrapR_some, ok_bind,
    Nat.add_comm q]
  have hh : lo K bs (2 ^ K - 1 + q) = q * bs := lo_leaf (by omega)
  rcases bwdUp_zero h hb (t.nodes.length + 1) (2 ^ K - 1 + q) (by omega) (by omega) (by omega) (by omega) with
    ⟨g1, g2⟩ | ⟨j, g1, g2⟩
  · rw [hh] at g1
    have : q = 0 := by
      rcases Nat.mul_eq_zero.mp g1 with h | h
      · exact h
      · omega
    rw [g2, ok_bind, if_pos this]; rfl
  · rw [hh] at g2
    have := Nat.eq_of_mul_eq_mul_right hbs g2
    rw [g1, ok_bind, if_neg (by omega)]
    unfold toBlock
    simp only []
    rw [subR_of_le (by omega), Nat.add_sub_cancel_left, show q - 1 = j by omega]; rfl

end
end MMT
end Vers
