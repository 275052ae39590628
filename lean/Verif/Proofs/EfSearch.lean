import Verif.Proofs.EfQuery

/-! # Searching inside a block of the Elias-Fano vector -/

set_option linter.unusedSimpArgs false

namespace Vers

variable [Profile]
open Spec
namespace EF
variable {ef : EF} {n : Nat} {D : Nat → Nat} {u s e l : Nat} {lq : Word}

omit [Profile] in
theorem gt_iff_toNat (a b : Word) : a > b ↔ b.toNat < a.toNat := by
  rw [gt_iff_lt, BitVec.lt_def]

omit [Profile] in
theorem eq_iff_toNat (a b : Word) : a = b ↔ a.toNat = b.toNat :=
  ⟨fun h => by rw [h], BitVec.eq_of_toNat_eq⟩

omit [Profile] in
theorem b2w_pos (b : Bool) : b2w b > 0#64 ↔ b = true := by cases b <;> decide

omit [Profile] in
@[simp] theorem dirIdx_up (b c : Nat) : dirIdx true b c = .ok (b + c) := rfl
omit [Profile] in
theorem dirIdx_down {b c : Nat} (h : c ≤ b) : dirIdx false b c = .ok (b - c) := by
  unfold dirIdx; simp [h]

/-- the word `masked` of the queries -/
abbrev mskW (ef : EF) (u : Nat) : Word := BitVec.ofNat 64 u <<< ef.lowerLen

omit [Profile] in
theorem loW_gt (hw : ef.lowerLen < 64) (hl : lq.toNat = l) (i : Nat) :
    loW ef D i > lq ↔ l < loD ef D i := by
  rw [gt_iff_toNat, loW_toNat hw, hl]

omit [Profile] in
theorem loW_lt (hw : ef.lowerLen < 64) (hl : lq.toNat = l) (i : Nat) :
    loW ef D i < lq ↔ loD ef D i < l := by
  rw [BitVec.lt_def, loW_toNat hw, hl]

omit [Profile] in
theorem loW_eq (hw : ef.lowerLen < 64) (hl : lq.toNat = l) (i : Nat) :
    loW ef D i = lq ↔ loD ef D i = l := by
  rw [eq_iff_toNat, loW_toNat hw, hl]

omit [Profile] in
theorem notYet_le (a b : Word) : notYet false true a b = true ↔ a.toNat ≤ b.toNat := by
  unfold notYet; simp [BitVec.le_def]

omit [Profile] in
theorem notYet_ge (a b : Word) : notYet false false a b = true ↔ b.toNat ≤ a.toNat := by
  unfold notYet; simp [BitVec.le_def]

omit [Profile] in
theorem notYet_lt (a b : Word) : notYet true true a b = true ↔ a.toNat < b.toNat := by
  unfold notYet; simp [BitVec.lt_def]

/-! ## the budget of the binary search -/

/-- a budget that suffices for every binary search -/
def BinOk (ef : EF) (b : Nat) : Prop := 1 ≤ b ∧ ef.len ≤ 2 ^ (b - 1)

omit [Profile] in
theorem binOk_default (ef : EF) : ef.BinOk (ef.len + 1) :=
  ⟨by omega, by rw [Nat.add_sub_cancel]; exact Nat.le_of_lt Nat.lt_two_pow_self⟩

theorem binLoop_fuel (index up : Bool) (lq m : Word) : ∀ (f g lb ub : Nat) (lc : Word), 1 ≤ f → 1 ≤ g → 1 ≤ ub →
    ub - lb ≤ 2 ^ (f - 1) → ub - lb ≤ 2 ^ (g - 1) →
    binLoop ef index up lq m f lb ub lc = binLoop ef index up lq m g lb ub lc := by
  intro f
  induction f with
  | zero => intro g lb ub lc h; omega
  | succ f ih =>
    intro g lb ub lc _ hg0 h0 hf hg
    cases g with
    | zero => omega
    | succ g =>
      rw [Nat.add_sub_cancel] at hf hg
      unfold binLoop
      · rw [subR_of_le h0, ok_bind, ok_bind]
        by_cases hlt : lb < ub - 1
        · rw [if_pos hlt, if_pos hlt, subR_of_le (show lb ≤ ub by omega), ok_bind, ok_bind]
          have f1 : 1 ≤ f := by
            refine Decidable.byContradiction fun h => ?_
            have : f = 0 := by omega
            subst this; omega
          have g1 : 1 ≤ g := by
            refine Decidable.byContradiction fun h => ?_
            have : g = 0 := by omega
            subst this; omega
          have ef' : 2 ^ f = 2 * 2 ^ (f - 1) := by
            rw [← Nat.pow_succ']; congr 1; omega
          have eg' : 2 ^ g = 2 * 2 ^ (g - 1) := by
            rw [← Nat.pow_succ']; congr 1; omega
          have E1 : ∀ lc, binLoop ef index up lq m f lb (lb + (ub - lb) / 2) lc =
              binLoop ef index up lq m g lb (lb + (ub - lb) / 2) lc := fun lc =>
            ih g _ _ lc f1 g1 (by omega) (by omega) (by omega)
          have E2 : ∀ lc, binLoop ef index up lq m f (lb + (ub - lb) / 2) ub lc =
              binLoop ef index up lq m g (lb + (ub - lb) / 2) ub lc := fun lc =>
            ih g _ _ lc f1 g1 (by omega) (by omega) (by omega)
          simp only [E1, E2]
        · rw [if_neg hlt, if_neg hlt]

/-! ## upwards, returning the element -/

/-- `x` is the last element of the block with lower half at most `l` -/
def UpGood (ef : EF) (D : Nat → Nat) (s e l : Nat) (x : Word) : Prop :=
  ∃ j, s ≤ j ∧ j < e ∧ x.toNat = ef.zero.toNat + D j ∧ loD ef D j ≤ l ∧
    (loD ef D j = l ∨ ∀ i, j < i → i < e → l < loD ef D i)

theorem upGood_value (h : ef.Inv n D) (B : Block ef n D u s e) {j : Nat} (h1 : s ≤ j) (h2 : j < e)
    (h3 : loD ef D j ≤ l) (h4 : loD ef D j = l ∨ ∀ i, j < i → i < e → l < loD ef D i) :
    ∃ x, addW (mskW ef u ||| loW ef D j) ef.zero = .ok x ∧ UpGood ef D s e l x := by
  obtain ⟨x, x1, x2⟩ := B.value h h1 h2
  exact ⟨x, x1, j, h1, h2, x2, h3, h4⟩

theorem binLoop_up (h : ef.Inv n D) (B : Block ef n D u s e) (hl : lq.toNat = l) :
    ∀ (fuel lb ub : Nat), ub - lb < fuel → s ≤ lb → lb ≤ ub → 1 ≤ ub → ub < e → loD ef D lb ≤ l →
      (ub = e - 1 ∨ l < loD ef D ub) →
      ∃ r, binLoop ef false true lq (mskW ef u) fuel lb ub (loW ef D lb) = .ok r ∧
        ((∃ x, r = .error x ∧ UpGood ef D s e l x) ∨
         ∃ lb' ub', r = .ok (lb', ub', loW ef D lb') ∧ s ≤ lb' ∧ lb' ≤ ub' ∧ ub' ≤ lb' + 1 ∧ ub' < e ∧
           loD ef D lb' ≤ l ∧ (ub' = e - 1 ∨ l < loD ef D ub')) := by
  intro fuel
  induction fuel with
  | zero => intro lb ub hf; omega
  | succ fuel ih =>
    intro lb ub hf h1 h2 h3 h4 h5 h6
    unfold binLoop
    rw [subR_of_le h3, ok_bind]
    by_cases hlt : lb < ub - 1
    · rw [if_pos hlt, subR_of_le (show lb ≤ ub by omega), ok_bind]
      generalize hm : lb + (ub - lb) / 2 = m
      have hm1 : lb < m := by omega
      have hm2 : m < ub := by omega
      rw [B.lowAt h (i := m) (by omega), ok_bind]
      by_cases hgt : l < loD ef D m
      · rw [if_pos ((loW_gt h.w hl _).mpr hgt)]
        simp only [if_true]
        exact ih lb m (by omega) h1 (by omega) (by omega) (by omega) h5 (Or.inr hgt)
      · rw [if_neg (fun h' => hgt ((loW_gt h.w hl _).mp h'))]
        by_cases heq : loD ef D m = l
        · rw [if_pos ((loW_eq h.w hl _).mpr heq)]
          unfold binHit
          obtain ⟨x, x1, x2⟩ := upGood_value h B (j := m) (by omega) (by omega) (by omega) (Or.inl heq)
          simp only [Bool.false_eq_true, if_false, x1, ok_bind]
          exact ⟨_, rfl, Or.inl ⟨x, rfl, x2⟩⟩
        · rw [if_neg (fun h' => heq ((loW_eq h.w hl _).mp h'))]
          simp only [if_true]
          exact ih m ub (by omega) (by omega) (by omega) h3 h4 (by omega) h6
    · rw [if_neg hlt]
      exact ⟨_, rfl, Or.inr ⟨lb, ub, rfl, h1, h2, by omega, h4, h5, h6⟩⟩

theorem binSearch_up {b : Nat} (hb : ef.BinOk b) (h : ef.Inv n D) (B : Block ef n D u s e) (hl : lq.toNat = l) {c : Nat} (hc : 2 ≤ c)
    (hce : s + c ≤ e) (h5 : loD ef D (s + c - 1) ≤ l) :
    ∃ x, binSearch ef false true s u lq (mskW ef u) c (loW ef D (s + c - 1))
      (ef.upper.supers.length + 1) b = .ok x ∧ UpGood ef D s e l x := by
  have hlen := h.len
  have hen := B.en
  unfold binSearch blockEnd
  simp only [if_true, B.sel_close h, ok_bind, dirIdx_up]
  rw [subR_of_le (by omega), ok_bind, show u + 1 + e - u = e + 1 by omega, subR_of_le (by omega), ok_bind,
    show e + 1 - 2 = e - 1 by omega, show s + (c - 1) = s + c - 1 by omega]
  obtain ⟨r, r1, r2⟩ := binLoop_up h B hl (ef.len + 1) (s + c - 1) (e - 1) (by omega) (by omega) (by omega)
    (by omega) (by omega) h5 (Or.inl rfl)
  rw [binLoop_fuel _ _ _ _ b (ef.len + 1) _ _ _ hb.1 (by omega) (by omega) (by have := hb.2; omega)
    (by have := (binOk_default ef).2; omega), r1, ok_bind]
  rcases r2 with ⟨x, rfl, x2⟩ | ⟨lb, ub, rfl, g1, g2, g3, g4, g5, g6⟩
  · exact ⟨x, rfl, x2⟩
  · simp only
    unfold binFinish binTail
    simp only [true_and, Bool.true_eq_false, false_and, or_false, dirIdx_up, ok_bind, Bool.false_eq_true,
      if_false]
    by_cases hlt : lb < e - 1
    · rw [if_pos hlt, B.lowAt h (i := lb + 1) (by omega), ok_bind]
      by_cases hle : loD ef D (lb + 1) ≤ l
      · rw [if_pos ((notYet_le _ _).mpr (by rw [loW_toNat h.w, hl]; exact hle))]
        refine upGood_value h B (j := lb + 1) (by omega) (by omega) hle ?_
        rcases g6 with g6 | g6
        · refine Or.inr (fun i h1 h2 => by omega)
        · have := B.lo_mono h (i := lb + 1) (j := ub) (by omega)
          have : ub = lb ∨ ub = lb + 1 := by omega
          rcases this with h7 | h7
          · subst h7; omega
          · subst h7; omega
      · rw [if_neg (fun h' => hle (by rw [notYet_le, loW_toNat h.w, hl] at h'; exact h'))]
        refine upGood_value h B (j := lb) g1 (by omega) g5 (Or.inr ?_)
        intro i h1 h2
        have := B.lo_mono h (i := lb + 1) (j := i) (by omega) (by omega) h2
        omega
    · rw [if_neg hlt]
      exact upGood_value h B (j := lb) g1 (by omega) g5 (Or.inr (fun i h1 h2 => by omega))

theorem linear_up {b : Nat} (hb : ef.BinOk b) (h : ef.Inv n D) (B : Block ef n D u s e) (hl : lq.toNat = l) :
    ∀ (fuel c : Nat), 1 ≤ c → (fuel = 0 → 2 ≤ c) → s + c ≤ e → loD ef D (s + c - 1) ≤ l →
      ∃ x, linear ef false true (u + s) s u lq (mskW ef u) (ef.upper.supers.length + 1) b
        fuel c (loW ef D (s + c - 1)) = .ok x ∧
        UpGood ef D s e l x := by
  intro fuel
  induction fuel with
  | zero =>
    intro c h1 h2 h3 h4
    exact binSearch_up hb h B hl (h2 rfl) h3 h4
  | succ fuel ih =>
    intro c h1 h2 h3 h4
    unfold linear
    simp only [dirIdx_up, ok_bind]
    rw [show u + s + (c + 1) = u + (s + c) + 1 by omega, B.bit h (by omega) h3, ok_bind]
    simp only [b2w_pos, decide_eq_true_eq]
    by_cases hce : s + c < e
    · rw [if_pos hce, B.lowAt h hce, ok_bind]
      simp only [true_and, Bool.true_eq_false, false_and, or_false, Bool.false_eq_true, if_false]
      by_cases hgt : l < loD ef D (s + c)
      · rw [if_pos ((loW_gt h.w hl _).mpr hgt)]
        refine upGood_value h B (j := s + c - 1) (by omega) (by omega) h4 (Or.inr ?_)
        intro i i1 i2
        have := B.lo_mono h (i := s + c) (j := i) (by omega) (by omega) i2
        omega
      · rw [if_neg (fun h' => hgt ((loW_gt h.w hl _).mp h'))]
        by_cases heq : loD ef D (s + c) = l
        · rw [if_pos ((loW_eq h.w hl _).mpr heq)]
          exact upGood_value h B (j := s + c) (by omega) hce (by omega) (Or.inl heq)
        · rw [if_neg (fun h' => heq ((loW_eq h.w hl _).mp h'))]
          have := ih (c + 1) (by omega) (by omega) (by omega) (by
            rw [show s + (c + 1) - 1 = s + c by omega]; omega)
          rw [show s + (c + 1) - 1 = s + c by omega] at this
          exact this
    · rw [if_neg hce]
      simp only [Bool.false_eq_true, if_false]
      exact upGood_value h B (j := s + c - 1) (by omega) (by omega) h4 (Or.inr (fun i i1 i2 => by omega))

omit [Profile] in
/-- everything outside the block -/
theorem Block.after (B : Block ef n D u s e) (hl : l < 2 ^ ef.lowerLen) {i : Nat}
    (h1 : i < n) (h2 : e ≤ i) : u * 2 ^ ef.lowerLen + l < D i := by
  have h3 := (B.hi i h1)
  have h4 : u + 1 ≤ hiD ef D i := by omega
  have h5 := hi_mul_add_lo ef D i
  have h6 : (u + 1) * 2 ^ ef.lowerLen ≤ hiD ef D i * 2 ^ ef.lowerLen := Nat.mul_le_mul_right _ h4
  rw [Nat.succ_mul] at h6
  omega

omit [Profile] in
theorem Block.before (B : Block ef n D u s e) {i : Nat}
    (h1 : i < n) (h2 : i < s) : D i < u * 2 ^ ef.lowerLen := by
  have h3 := (B.lo i h1).mpr h2
  have h5 := hi_mul_add_lo ef D i
  have h6 : (hiD ef D i + 1) * 2 ^ ef.lowerLen ≤ u * 2 ^ ef.lowerLen := Nat.mul_le_mul_right _ h3
  have h7 := loD_lt ef D i
  rw [Nat.succ_mul] at h6
  omega

/-- the result of the upward element search: the last element `≤ q`, where `q = u·2^w + l` -/
theorem search_up {b : Nat} (hb : ef.BinOk b) (h : ef.Inv n D) (B : Block ef n D u s e) {q : Word}
    (hq : q.toNat = u * 2 ^ ef.lowerLen + l) (hl : lq.toNat = l) (hlw : l < 2 ^ ef.lowerLen) :
    ∃ x j, search ef false true (u + s) s q u lq (mskW ef u) (ef.upper.supers.length + 1) b = .ok x ∧ j < n ∧
      x.toNat = ef.zero.toNat + D j ∧ D j ≤ q.toNat ∧ ∀ i, i < n → D i ≤ q.toNat → D i ≤ D j := by
  have hen := B.en
  have outside : (∀ i, s ≤ i → i < e → q.toNat < D i) →
      ∃ x j, searchOutside ef false true s = .ok x ∧ j < n ∧
      x.toNat = ef.zero.toNat + D j ∧ D j ≤ q.toNat ∧ ∀ i, i < n → D i ≤ q.toNat → D i ≤ D j := by
    intro hout
    have hs : 1 ≤ s := by
      rcases Nat.eq_zero_or_pos s with h0 | h0
      · have hd := h.d0
        have := h.pos
        rcases Nat.eq_or_lt_of_le B.se with h1 | h1
        · have := B.after hlw (i := 0) (by omega) (by omega); omega
        · have := hout 0 (by omega) (by omega); omega
      · exact h0
    unfold searchOutside
    simp only [Bool.false_eq_true, if_false, Bool.not_true]
    have hse := B.se
    rw [dirIdx_down hs, ok_bind]
    obtain ⟨x, x1, x2⟩ := h.get_eq (i := s - 1) (by omega)
    refine ⟨x, s - 1, x1, by omega, x2, ?_, ?_⟩
    · have := B.before (i := s - 1) (by omega) (by omega); omega
    · intro i h1 h2
      apply h.mono i (s - 1) _ (by omega)
      rcases Nat.lt_or_ge i s with h3 | h3
      · omega
      · rcases Nat.lt_or_ge i e with h4 | h4
        · have := hout i h3 h4; omega
        · have := B.after hlw h1 h4; omega
  unfold search
  simp only [dirIdx_up, ok_bind]
  rw [B.bit h (j := s) (by omega) B.se, ok_bind]
  simp only [b2w_pos, decide_eq_true_eq]
  by_cases hse : s < e
  · rw [if_pos hse, B.lowAt h hse, ok_bind]
    have hD := B.D_eq (i := s) (Nat.le_refl _) hse
    by_cases hle : D s ≤ q.toNat
    · rw [if_pos ((notYet_le _ _).mpr (by rw [B.candidate h (Nat.le_refl _) hse]; exact hle))]
      obtain ⟨x, x1, j, j1, j2, j3, j4, j5⟩ := linear_up hb h B hl 3 1 (by omega) (by omega) (by omega)
        (by simp only [Nat.add_sub_cancel]; omega)
      refine ⟨x, j, x1, by omega, j3, by have := B.D_eq j1 j2; omega, ?_⟩
      intro i h1 h2
      have hDj := B.D_eq j1 j2
      rcases Nat.lt_or_ge j i with h3 | h3
      · rcases Nat.lt_or_ge i e with h4 | h4
        · have hDi := B.D_eq (i := i) (by omega) h4
          rcases j5 with j5 | j5
          · omega
          · have := j5 i h3 h4; omega
        · have := B.after hlw h1 h4; omega
      · exact h.mono i j h3 (by omega)
    · rw [if_neg (fun h' => hle (by rw [notYet_le, B.candidate h (Nat.le_refl _) hse] at h'; exact h'))]
      apply outside
      intro i h1 h2
      have := h.mono s i h1 (by omega)
      omega
  · rw [if_neg hse]
    exact outside (fun i h1 h2 => by omega)

/-! ## downwards, returning the element -/

/-- `x` is the first element of the block with lower half at least `l` -/
def DnGood (ef : EF) (D : Nat → Nat) (s e l : Nat) (x : Word) : Prop :=
  ∃ j, s ≤ j ∧ j < e ∧ x.toNat = ef.zero.toNat + D j ∧ l ≤ loD ef D j ∧
    (loD ef D j = l ∨ ∀ i, s ≤ i → i < j → loD ef D i < l)

theorem dnGood_value (h : ef.Inv n D) (B : Block ef n D u s e) {j : Nat} (h1 : s ≤ j) (h2 : j < e)
    (h3 : l ≤ loD ef D j) (h4 : loD ef D j = l ∨ ∀ i, s ≤ i → i < j → loD ef D i < l) :
    ∃ x, addW (mskW ef u ||| loW ef D j) ef.zero = .ok x ∧ DnGood ef D s e l x := by
  obtain ⟨x, x1, x2⟩ := B.value h h1 h2
  exact ⟨x, x1, j, h1, h2, x2, h3, h4⟩

theorem lo_zero (h : ef.Inv n D) : loD ef D 0 = 0 := by unfold loD; rw [h.d0]; simp

theorem binLoop_down (h : ef.Inv n D) (B : Block ef n D u s e) (hl : lq.toNat = l) :
    ∀ (fuel lb ub : Nat), ub - lb < fuel → s ≤ lb → lb ≤ ub → ub < e → l < loD ef D ub →
      (lb = s ∨ loD ef D lb < l) →
      ∃ r, binLoop ef false false lq (mskW ef u) fuel lb ub (loW ef D ub) = .ok r ∧
        ((∃ x, r = .error x ∧ DnGood ef D s e l x) ∨
         ∃ lb' ub', r = .ok (lb', ub', loW ef D ub') ∧ s ≤ lb' ∧ lb' ≤ ub' ∧ ub' ≤ lb' + 1 ∧ ub' < e ∧
           l < loD ef D ub' ∧ (lb' = s ∨ loD ef D lb' < l)) := by
  intro fuel
  induction fuel with
  | zero => intro lb ub hf; omega
  | succ fuel ih =>
    intro lb ub hf h1 h2 h4 h5 h6
    have h3 : 1 ≤ ub := by
      rcases Nat.eq_zero_or_pos ub with h0 | h0
      · subst h0; rw [lo_zero h] at h5; omega
      · exact h0
    unfold binLoop
    rw [subR_of_le h3, ok_bind]
    by_cases hlt : lb < ub - 1
    · rw [if_pos hlt, subR_of_le (show lb ≤ ub by omega), ok_bind]
      generalize hm : lb + (ub - lb) / 2 = m
      have hm1 : lb < m := by omega
      have hm2 : m < ub := by omega
      rw [B.lowAt h (i := m) (by omega), ok_bind]
      by_cases hgt : l < loD ef D m
      · rw [if_pos ((loW_gt h.w hl _).mpr hgt)]
        simp only [Bool.false_eq_true, if_false]
        exact ih lb m (by omega) h1 (by omega) (by omega) hgt h6
      · rw [if_neg (fun h' => hgt ((loW_gt h.w hl _).mp h'))]
        by_cases heq : loD ef D m = l
        · rw [if_pos ((loW_eq h.w hl _).mpr heq)]
          unfold binHit
          obtain ⟨x, x1, x2⟩ := dnGood_value h B (j := m) (by omega) (by omega) (by omega) (Or.inl heq)
          simp only [Bool.false_eq_true, if_false, x1, ok_bind]
          exact ⟨_, rfl, Or.inl ⟨x, rfl, x2⟩⟩
        · rw [if_neg (fun h' => heq ((loW_eq h.w hl _).mp h'))]
          simp only [Bool.false_eq_true, if_false]
          exact ih m ub (by omega) (by omega) (by omega) h4 h5 (Or.inr (by omega))
    · rw [if_neg hlt]
      exact ⟨_, rfl, Or.inr ⟨lb, ub, rfl, h1, h2, by omega, h4, h5, h6⟩⟩

theorem binSearch_down {b : Nat} (hb : ef.BinOk b) (h : ef.Inv n D) (B : Block ef n D u s e) (hl : lq.toNat = l) {c : Nat} (hc : 1 ≤ c)
    (hce : s + c ≤ e) (h5 : l < loD ef D (e - c)) :
    ∃ x, binSearch ef false false (e - 1) u lq (mskW ef u) c (loW ef D (e - c))
      (ef.upper.supers.length + 1) b = .ok x ∧ DnGood ef D s e l x := by
  have hlen := h.len
  have hen := B.en
  unfold binSearch blockEnd
  simp only [Bool.false_eq_true, if_false, B.sel_open h, ok_bind]
  rw [subR_of_le (by omega), ok_bind, dirIdx_down (by omega), ok_bind,
    show u + s - u = s by omega, show e - 1 - (c - 1) = e - c by omega]
  obtain ⟨r, r1, r2⟩ := binLoop_down h B hl (ef.len + 1) s (e - c) (by omega) (by omega) (by omega)
    (by omega) h5 (Or.inl rfl)
  have hub : 1 ≤ e - c := by
    rcases Nat.eq_zero_or_pos (e - c) with h0 | h0
    · rw [h0, lo_zero h] at h5; omega
    · exact h0
  rw [binLoop_fuel _ _ _ _ b (ef.len + 1) _ _ _ hb.1 (by omega) hub (by have := hb.2; omega)
    (by have := (binOk_default ef).2; omega), r1, ok_bind]
  rcases r2 with ⟨x, rfl, x2⟩ | ⟨lb, ub, rfl, g1, g2, g3, g4, g5, g6⟩
  · exact ⟨x, rfl, x2⟩
  · simp only
    unfold binFinish binTail
    simp only [Bool.false_eq_true, false_and, true_and, false_or, if_false]
    by_cases hlt : ub > s
    · rw [if_pos hlt, dirIdx_down (by omega), ok_bind, B.lowAt h (i := ub - 1) (by omega), ok_bind]
      by_cases hle : l ≤ loD ef D (ub - 1)
      · rw [if_pos ((notYet_ge _ _).mpr (by rw [loW_toNat h.w, hl]; exact hle))]
        refine dnGood_value h B (j := ub - 1) (by omega) (by omega) hle ?_
        rcases g6 with g6 | g6
        · exact Or.inr (fun i h1 h2 => by omega)
        · have := B.lo_mono h (i := ub - 1) (j := lb) (by omega) (by omega) (by omega)
          omega
      · rw [if_neg (fun h' => hle (by rw [notYet_ge, loW_toNat h.w, hl] at h'; exact h'))]
        refine dnGood_value h B (j := ub) (by omega) g4 (by omega) (Or.inr ?_)
        intro i h1 h2
        have := B.lo_mono h (i := i) (j := ub - 1) h1 (by omega) (by omega)
        omega
    · rw [if_neg hlt]
      exact dnGood_value h B (j := ub) (by omega) g4 (by omega) (Or.inr (fun i h1 h2 => by omega))

theorem linear_down {b : Nat} (hb : ef.BinOk b) (h : ef.Inv n D) (B : Block ef n D u s e) (hl : lq.toNat = l) :
    ∀ (fuel c : Nat), 1 ≤ c → (fuel = 0 → 2 ≤ c) → s + c ≤ e → l ≤ loD ef D (e - c) →
      (2 ≤ c → l < loD ef D (e - c)) →
      ∃ x, linear ef false false (u + 1 + e) (e - 1) u lq (mskW ef u) (ef.upper.supers.length + 1) b
        fuel c (loW ef D (e - c)) = .ok x ∧
        DnGood ef D s e l x := by
  intro fuel
  induction fuel with
  | zero =>
    intro c h1 h2 h3 _ h4
    exact binSearch_down hb h B hl h1 h3 (h4 (h2 rfl))
  | succ fuel ih =>
    intro c h1 h2 h3 h4 _
    unfold linear
    rw [dirIdx_down (by omega), ok_bind]
    by_cases hce : s + c < e
    · rw [show u + 1 + e - (c + 1) = u + (e - c - 1) + 1 by omega, B.bit h (j := e - c - 1) (by omega) (by omega),
        ok_bind]
      simp only [b2w_pos, decide_eq_true_eq]
      rw [if_pos (by omega), dirIdx_down (by omega), ok_bind, show e - 1 - c = e - c - 1 by omega,
        B.lowAt h (i := e - c - 1) (by omega), ok_bind]
      simp only [Bool.false_eq_true, false_and, true_and, false_or, if_false]
      by_cases hgt : loD ef D (e - c - 1) < l
      · rw [if_pos ((loW_lt h.w hl _).mpr hgt)]
        refine dnGood_value h B (j := e - c) (by omega) (by omega) h4 (Or.inr ?_)
        intro i i1 i2
        have := B.lo_mono h (i := i) (j := e - c - 1) (by omega) (by omega) (by omega)
        omega
      · rw [if_neg (fun h' => hgt ((loW_lt h.w hl _).mp h'))]
        by_cases heq : loD ef D (e - c - 1) = l
        · rw [if_pos ((loW_eq h.w hl _).mpr heq)]
          exact dnGood_value h B (j := e - c - 1) (by omega) (by omega) (by omega) (Or.inl heq)
        · rw [if_neg (fun h' => heq ((loW_eq h.w hl _).mp h'))]
          have := ih (c + 1) (by omega) (by omega) (by omega)
            (by rw [show e - (c + 1) = e - c - 1 by omega]; omega)
            (by rw [show e - (c + 1) = e - c - 1 by omega]; omega)
          rw [show e - (c + 1) = e - c - 1 by omega] at this
          exact this
    · rw [show u + 1 + e - (c + 1) = u + s by omega, B.bit_open h, ok_bind]
      simp only [b2w_pos, Bool.false_eq_true, if_false]
      exact dnGood_value h B (j := e - c) (by omega) (by omega) h4 (Or.inr (fun i i1 i2 => by omega))

/-- the result of the downward element search: the first element `≥ q`, where `q = u·2^w + l` -/
theorem search_down {b : Nat} (hb : ef.BinOk b) (h : ef.Inv n D) (B : Block ef n D u s e) {q : Word}
    (hq : q.toNat = u * 2 ^ ef.lowerLen + l) (hl : lq.toNat = l) (hlw : l < 2 ^ ef.lowerLen)
    (he : 1 ≤ e) (hmax : q.toNat ≤ D (n - 1)) :
    ∃ x j, search ef false false (u + 1 + e) (e - 1) q u lq (mskW ef u) (ef.upper.supers.length + 1) b = .ok x ∧ j < n ∧
      x.toNat = ef.zero.toNat + D j ∧ q.toNat ≤ D j ∧ ∀ i, i < n → q.toNat ≤ D i → D j ≤ D i := by
  have hen := B.en
  have hse := B.se
  have outside : (∀ i, s ≤ i → i < e → D i < q.toNat) →
      ∃ x j, searchOutside ef false false (e - 1) = .ok x ∧ j < n ∧
      x.toNat = ef.zero.toNat + D j ∧ q.toNat ≤ D j ∧ ∀ i, i < n → q.toNat ≤ D i → D j ≤ D i := by
    intro hout
    have hs : e < n := by
      rcases Nat.eq_or_lt_of_le hen with h0 | h0
      · subst h0
        rcases Nat.eq_or_lt_of_le B.se with h1 | h1
        · have := B.before (i := e - 1) (by omega) (by omega); omega
        · have := hout (e - 1) (by omega) (by omega); omega
      · exact h0
    unfold searchOutside
    simp only [Bool.false_eq_true, if_false, Bool.not_false, dirIdx_up, ok_bind]
    rw [show e - 1 + 1 = e by omega]
    obtain ⟨x, x1, x2⟩ := h.get_eq (i := e) (by omega)
    refine ⟨x, e, x1, by omega, x2, ?_, ?_⟩
    · have := B.after hlw (i := e) (by omega) (by omega); omega
    · intro i h1 h2
      apply h.mono e i _ (by omega)
      rcases Nat.lt_or_ge i e with h3 | h3
      · rcases Nat.lt_or_ge i s with h4 | h4
        · have := B.before h1 h4; omega
        · have := hout i h4 h3; omega
      · exact h3
  unfold search
  rw [dirIdx_down (by omega), ok_bind]
  by_cases hlt : s < e
  · rw [show u + 1 + e - 1 = u + (e - 1) + 1 by omega, B.bit h (j := e - 1) (by omega) (by omega), ok_bind]
    simp only [b2w_pos, decide_eq_true_eq]
    rw [if_pos (by omega), B.lowAt h (i := e - 1) (by omega), ok_bind]
    have hD := B.D_eq (i := e - 1) (by omega) (by omega)
    by_cases hle : q.toNat ≤ D (e - 1)
    · rw [if_pos ((notYet_ge _ _).mpr (by rw [B.candidate h (i := e - 1) (by omega) (by omega)]; exact hle))]
      obtain ⟨x, x1, j, j1, j2, j3, j4, j5⟩ := linear_down hb h B hl 3 1 (by omega) (by omega) (by omega)
        (by omega) (by omega)
      have hDj := B.D_eq j1 j2
      refine ⟨x, j, x1, by omega, j3, by omega, ?_⟩
      intro i h1 h2
      rcases Nat.lt_or_ge i j with h3 | h3
      · rcases Nat.lt_or_ge i s with h4 | h4
        · have := B.before h1 h4; omega
        · have hDi := B.D_eq (i := i) h4 (by omega)
          rcases j5 with j5 | j5
          · omega
          · have := j5 i h4 h3; omega
      · exact h.mono j i h3 h1
    · rw [if_neg (fun h' => hle (by
        rw [notYet_ge, B.candidate h (i := e - 1) (by omega) (by omega)] at h'; exact h'))]
      apply outside
      intro i h1 h2
      have := h.mono i (e - 1) (by omega) (by omega)
      omega
  · rw [show u + 1 + e - 1 = u + s by omega, B.bit_open h, ok_bind]
    simp only [b2w_pos, Bool.false_eq_true, if_false]
    exact outside (fun i h1 h2 => by omega)

/-! ## upwards, returning the number of smaller elements -/

/-- `k` separates the elements of the block below `l` from the others -/
def IdxGood (ef : EF) (D : Nat → Nat) (s e l k : Nat) : Prop :=
  s ≤ k ∧ k ≤ e ∧ (∀ i, s ≤ i → i < k → loD ef D i < l) ∧ (∀ i, k ≤ i → i < e → l ≤ loD ef D i)

theorem binWalk_eq (h : ef.Inv n D) (B : Block ef n D u s e) (hl : lq.toNat = l) {g : Nat} (hg : s ≤ g)
    (hgl : loD ef D g < l) :
    ∀ (fuel m : Nat), m < fuel → g < m → m < e → loD ef D m = l →
      ∃ k, binWalk ef true lq fuel m = .ok k ∧ IdxGood ef D s e l k := by
  intro fuel
  induction fuel with
  | zero => intro m hf; omega
  | succ fuel ih =>
    intro m hf h1 h2 h3
    unfold binWalk
    simp only [Bool.not_true]
    rw [dirIdx_down (by omega), ok_bind, B.lowAt h (i := m - 1) (by omega), ok_bind]
    by_cases heq : loD ef D (m - 1) = l
    · rw [if_pos ((loW_eq h.w hl _).mpr heq)]
      have hne : g ≠ m - 1 := by intro h'; subst h'; omega
      exact ih (m - 1) (by omega) (by omega) (by omega) heq
    · rw [if_neg (fun h' => heq ((loW_eq h.w hl _).mp h'))]
      refine ⟨m, rfl, by omega, by omega, ?_, ?_⟩
      · intro i i1 i2
        have h4 := B.lo_mono h (i := i) (j := m - 1) i1 (by omega) (by omega)
        have h5 := B.lo_mono h (i := m - 1) (j := m) (by omega) (by omega) h2
        omega
      · intro i i1 i2
        have := B.lo_mono h (i := m) (j := i) (by omega) i1 i2
        omega

theorem binLoop_idx (h : ef.Inv n D) (B : Block ef n D u s e) (hl : lq.toNat = l) :
    ∀ (fuel lb ub : Nat) (lc : Word), ub - lb < fuel → s ≤ lb → lb ≤ ub → 1 ≤ ub → ub < e →
      loD ef D lb < l → (ub = e - 1 ∨ l < loD ef D ub) →
      ∃ r, binLoop ef true true lq (mskW ef u) fuel lb ub lc = .ok r ∧
        ((∃ k, r = .error (BitVec.ofNat 64 k) ∧ IdxGood ef D s e l k) ∨
         ∃ lb' ub' lc', r = .ok (lb', ub', lc') ∧ s ≤ lb' ∧ lb' ≤ ub' ∧ ub' ≤ lb' + 1 ∧ ub' < e ∧
           loD ef D lb' < l ∧ (ub' = e - 1 ∨ l < loD ef D ub')) := by
  intro fuel
  induction fuel with
  | zero => intro lb ub lc hf; omega
  | succ fuel ih =>
    intro lb ub lc hf h1 h2 h3 h4 h5 h6
    unfold binLoop
    rw [subR_of_le h3, ok_bind]
    by_cases hlt : lb < ub - 1
    · rw [if_pos hlt, subR_of_le (show lb ≤ ub by omega), ok_bind]
      generalize hm : lb + (ub - lb) / 2 = m
      have hm1 : lb < m := by omega
      have hm2 : m < ub := by omega
      rw [B.lowAt h (i := m) (by omega), ok_bind]
      by_cases hgt : l < loD ef D m
      · rw [if_pos ((loW_gt h.w hl _).mpr hgt)]
        exact ih lb m _ (by omega) h1 (by omega) (by omega) (by omega) h5 (Or.inr hgt)
      · rw [if_neg (fun h' => hgt ((loW_gt h.w hl _).mp h'))]
        by_cases heq : loD ef D m = l
        · rw [if_pos ((loW_eq h.w hl _).mpr heq)]
          unfold binHit
          obtain ⟨k, k1, k2⟩ := binWalk_eq h B hl h1 h5 (m + 1) m (by omega) hm1 (by omega) heq
          simp only [if_true, k1, ok_bind]
          exact ⟨_, rfl, Or.inl ⟨k, rfl, k2⟩⟩
        · rw [if_neg (fun h' => heq ((loW_eq h.w hl _).mp h'))]
          exact ih m ub _ (by omega) (by omega) (by omega) h3 h4 (by omega) h6
    · rw [if_neg hlt]
      exact ⟨_, rfl, Or.inr ⟨lb, ub, _, rfl, h1, h2, by omega, h4, h5, h6⟩⟩

theorem binSearch_idx {b : Nat} (hb : ef.BinOk b) (h : ef.Inv n D) (B : Block ef n D u s e) (hl : lq.toNat = l) {c : Nat} (hc : 2 ≤ c)
    (hce : s + c ≤ e) (h5 : loD ef D (s + c - 1) < l) (lc : Word) :
    ∃ k, binSearch ef true true s u lq (mskW ef u) c lc (ef.upper.supers.length + 1) b = .ok (BitVec.ofNat 64 k) ∧
      IdxGood ef D s e l k := by
  have hlen := h.len
  have hen := B.en
  unfold binSearch blockEnd
  simp only [if_true, B.sel_close h, ok_bind, dirIdx_up]
  rw [subR_of_le (by omega), ok_bind, show u + 1 + e - u = e + 1 by omega, subR_of_le (by omega), ok_bind,
    show e + 1 - 2 = e - 1 by omega, show s + (c - 1) = s + c - 1 by omega]
  obtain ⟨r, r1, r2⟩ := binLoop_idx h B hl (ef.len + 1) (s + c - 1) (e - 1) lc (by omega) (by omega) (by omega)
    (by omega) (by omega) h5 (Or.inl rfl)
  rw [binLoop_fuel _ _ _ _ b (ef.len + 1) _ _ _ hb.1 (by omega) (by omega) (by have := hb.2; omega)
    (by have := (binOk_default ef).2; omega), r1, ok_bind]
  rcases r2 with ⟨k, rfl, k2⟩ | ⟨lb, ub, lc', rfl, g1, g2, g3, g4, g5, g6⟩
  · exact ⟨k, rfl, k2⟩
  · simp only
    unfold binFinish binTail
    simp only [true_and, Bool.true_eq_false, false_and, or_false, dirIdx_up, ok_bind, if_true]
    have below : ∀ i, s ≤ i → i ≤ lb → loD ef D i < l := fun i h1 h2 => by
      have := B.lo_mono h (i := i) (j := lb) h1 h2 (by omega); omega
    by_cases hlt : lb < e - 1
    · rw [if_pos hlt, B.lowAt h (i := lb + 1) (by omega), ok_bind]
      by_cases hle : loD ef D (lb + 1) < l
      · rw [if_pos ((notYet_lt _ _).mpr (by rw [loW_toNat h.w, hl]; exact hle))]
        refine ⟨lb + 1 + 1, rfl, by omega, by omega, ?_, ?_⟩
        · intro i h1 h2
          rcases Nat.lt_or_ge lb i with h3 | h3
          · have : i = lb + 1 := by omega
            subst this; exact hle
          · exact below i h1 h3
        · intro i h1 h2
          rcases g6 with g6 | g6
          · omega
          · have := B.lo_mono h (i := ub) (j := i) (by omega) (by omega) h2
            omega
      · rw [if_neg (fun h' => hle (by rw [notYet_lt, loW_toNat h.w, hl] at h'; exact h'))]
        refine ⟨lb + 1, rfl, by omega, by omega, fun i h1 h2 => below i h1 (by omega), ?_⟩
        intro i h1 h2
        have := B.lo_mono h (i := lb + 1) (j := i) (by omega) (by omega) h2
        omega
    · rw [if_neg hlt]
      exact ⟨lb + 1, rfl, by omega, by omega, fun i h1 h2 => below i h1 (by omega), fun i h1 h2 => by omega⟩

theorem linear_idx {b : Nat} (hb : ef.BinOk b) (h : ef.Inv n D) (B : Block ef n D u s e) (hl : lq.toNat = l) :
    ∀ (fuel c : Nat) (lc : Word), 1 ≤ c → (fuel = 0 → 2 ≤ c) → s + c ≤ e → loD ef D (s + c - 1) < l →
      ∃ k, linear ef true true (u + s) s u lq (mskW ef u) (ef.upper.supers.length + 1) b
        fuel c lc = .ok (BitVec.ofNat 64 k) ∧
        IdxGood ef D s e l k := by
  intro fuel
  induction fuel with
  | zero =>
    intro c lc h1 h2 h3 h4
    exact binSearch_idx hb h B hl (h2 rfl) h3 h4 lc
  | succ fuel ih =>
    intro c lc h1 h2 h3 h4
    unfold linear
    simp only [dirIdx_up, ok_bind]
    rw [show u + s + (c + 1) = u + (s + c) + 1 by omega, B.bit h (by omega) h3, ok_bind]
    simp only [b2w_pos, decide_eq_true_eq]
    have below : ∀ i, s ≤ i → i < s + c → loD ef D i < l := fun i h5 h6 => by
      have := B.lo_mono h (i := i) (j := s + c - 1) h5 (by omega) (by omega); omega
    by_cases hce : s + c < e
    · rw [if_pos hce, B.lowAt h hce, ok_bind]
      simp only [true_and, Bool.true_eq_false, false_and, or_false, if_true]
      have fin : l ≤ loD ef D (s + c) → IdxGood ef D s e l (s + c) := by
        intro h7
        refine ⟨by omega, by omega, below, ?_⟩
        intro i i1 i2
        have := B.lo_mono h (i := s + c) (j := i) (by omega) (by omega) i2
        omega
      by_cases hgt : l < loD ef D (s + c)
      · rw [if_pos ((loW_gt h.w hl _).mpr hgt)]
        exact ⟨s + c, rfl, fin (by omega)⟩
      · rw [if_neg (fun h' => hgt ((loW_gt h.w hl _).mp h'))]
        by_cases heq : loD ef D (s + c) = l
        · rw [if_pos ((loW_eq h.w hl _).mpr heq)]
          exact ⟨s + c, rfl, fin (by omega)⟩
        · rw [if_neg (fun h' => heq ((loW_eq h.w hl _).mp h'))]
          exact ih (c + 1) _ (by omega) (by omega) (by omega) (by
            rw [show s + (c + 1) - 1 = s + c by omega]; omega)
    · rw [if_neg hce]
      simp only [if_true]
      exact ⟨s + c, rfl, by omega, by omega, below, fun i i1 i2 => by omega⟩

/-- the result of the index search: the number of elements `< q`, where `q = u·2^w + l` -/
theorem search_idx {b : Nat} (hb : ef.BinOk b) (h : ef.Inv n D) (B : Block ef n D u s e) {q : Word}
    (hq : q.toNat = u * 2 ^ ef.lowerLen + l) (hl : lq.toNat = l) (hlw : l < 2 ^ ef.lowerLen) :
    ∃ k, search ef true true (u + s) s q u lq (mskW ef u) (ef.upper.supers.length + 1) b = .ok (BitVec.ofNat 64 k) ∧ k ≤ n ∧
      ∀ i, i < n → (D i < q.toNat ↔ i < k) := by
  have hen := B.en
  have hse := B.se
  have fin : ∀ k, IdxGood ef D s e l k → k ≤ n ∧ ∀ i, i < n → (D i < q.toNat ↔ i < k) := by
    intro k ⟨k1, k2, k3, k4⟩
    refine ⟨by omega, fun i hi => ?_⟩
    rcases Nat.lt_or_ge i s with h1 | h1
    · have := B.before hi h1; omega
    · rcases Nat.lt_or_ge i e with h2 | h2
      · have hD := B.D_eq h1 h2
        rcases Nat.lt_or_ge i k with h3 | h3
        · have := k3 i h1 h3; omega
        · have := k4 i h3 h2; omega
      · have := B.after hlw hi h2; omega
  have outside : (∀ i, s ≤ i → i < e → l ≤ loD ef D i) →
      ∃ k, searchOutside ef true true s = .ok (BitVec.ofNat 64 k) ∧ k ≤ n ∧
        ∀ i, i < n → (D i < q.toNat ↔ i < k) := by
    intro hout
    exact ⟨s, rfl, fin s ⟨Nat.le_refl _, hse, fun i h1 h2 => by omega, hout⟩⟩
  unfold search
  simp only [dirIdx_up, ok_bind]
  rw [B.bit h (j := s) (by omega) B.se, ok_bind]
  simp only [b2w_pos, decide_eq_true_eq]
  by_cases hlt : s < e
  · rw [if_pos hlt, B.lowAt h hlt, ok_bind]
    have hD := B.D_eq (i := s) (Nat.le_refl _) hlt
    by_cases hle : D s < q.toNat
    · rw [if_pos ((notYet_lt _ _).mpr (by rw [B.candidate h (Nat.le_refl _) hlt]; exact hle))]
      obtain ⟨k, k1, k2⟩ := linear_idx hb h B hl 3 1 (loW ef D s) (by omega) (by omega) (by omega)
        (by simp only [Nat.add_sub_cancel]; omega)
      exact ⟨k, k1, fin k k2⟩
    · rw [if_neg (fun h' => hle (by rw [notYet_lt, B.candidate h (Nat.le_refl _) hlt] at h'; exact h'))]
      apply outside
      intro i h1 h2
      have := B.lo_mono h (Nat.le_refl s) h1 h2
      omega
  · rw [if_neg hlt]
    exact outside (fun i h1 h2 => by omega)

end EF
end Vers
