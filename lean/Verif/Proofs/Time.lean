import Verif.Proofs.RsQuery

/-! # Number of loop iterations of `select` -/

set_option linter.unusedSimpArgs false

namespace Vers

variable [Profile]
namespace RsVec
variable {rs : RsVec}

/-! ## the logarithmic case -/

theorem searchSuperBin_log (h : rs.Inv) (r : Nat) :
    ∀ (fuel s upper : Nat), 1 ≤ fuel → upper - s ≤ 2 ^ (fuel + 2) → s ≤ upper → upper < rs.supers.length →
      C rs.data false (8192 * s) ≤ r → r < C rs.data false (8192 * (upper + 1)) →
      ∃ s', rs.searchSuperBin true r fuel s upper = .ok s' ∧ s' < rs.supers.length ∧
        C rs.data false (8192 * s') ≤ r ∧ r < C rs.data false (8192 * (s' + 9)) := by
  intro fuel
  induction fuel with
  | zero => intro s upper h1; omega
  | succ fuel ih =>
    intro s upper hf hpow hsu hu hc hcu
    unfold searchSuperBin
    rw [subR_of_le hsu, ok_bind]
    by_cases hd : upper - s > 8
    · rw [if_pos hd]
      simp only
      have hf0 : 1 ≤ fuel := by
        refine Decidable.byContradiction fun hc => ?_
        have : fuel = 0 := by omega
        subst this
        omega
      have hpow' : 2 ^ (fuel + 1 + 2) = 2 * 2 ^ (fuel + 2) := by
        rw [show fuel + 1 + 2 = (fuel + 2) + 1 by omega, Nat.pow_succ]; omega
      have hm : s + (upper - s) / 2 < rs.supers.length := by omega
      unfold searchSuperKey
      rw [idx_of_some (h.sval _ hm), ok_bind, if_pos rfl, pure_eq_ok, ok_bind]
      by_cases hzr : C rs.data false (8192 * (s + (upper - s) / 2)) ≤ r
      · rw [if_pos hzr]
        exact ih _ _ hf0 (by omega) (by omega) hu hzr hcu
      · rw [if_neg hzr]
        refine ih _ _ hf0 (by omega) (by omega) hm hc ?_
        have := C_mono rs.data false (i := 8192 * (s + (upper - s) / 2))
          (j := 8192 * (s + (upper - s) / 2 + 1)) (by omega)
        omega
    · rw [if_neg hd]
      refine ⟨s, rfl, by omega, hc, ?_⟩
      have := C_mono rs.data false (i := 8192 * (upper + 1)) (j := 8192 * (s + 9)) (by omega)
      omega

theorem searchSuperLin_short (h : rs.Inv) (zero : Bool) (r : Nat) :
    ∀ (fuel s : Nat), 1 ≤ fuel → s < rs.supers.length → C rs.data (!zero) (8192 * s) ≤ r →
      r < C rs.data (!zero) (8192 * (s + fuel)) →
      ∃ s', rs.searchSuperLin zero r fuel s = .ok s' ∧ IsSuper rs zero r s' := by
  intro fuel
  induction fuel with
  | zero => intro s h1; omega
  | succ fuel ih =>
    intro s _ hs hc hr
    unfold searchSuperLin
    by_cases hl : rs.supers.length > s + 1
    · rw [if_pos hl, superBefore_eq h zero (by omega), ok_bind]
      by_cases hz : C rs.data (!zero) (8192 * (s + 1)) ≤ r
      · rw [if_pos hz]
        refine ih (s + 1) ?_ (by omega) hz (by rw [show s + 1 + fuel = s + (fuel + 1) by omega]; exact hr)
        refine Decidable.byContradiction fun h0 => ?_
        have : fuel = 0 := by omega
        subst this
        rw [Nat.zero_add] at hr
        omega
      · rw [if_neg hz]; exact ⟨s, rfl, hs, hc, fun _ => by omega⟩
    · rw [if_neg hl]; exact ⟨s, rfl, hs, hc, fun h => by omega⟩

omit [Profile] in
theorem cumAt_true_le (d : List Word) (len p : Nat) : cumAt d len true p ≤ C d false p := by
  unfold cumAt
  rw [if_pos rfl]
  exact C_mono d false (by omega)

/-- `select0` with a logarithmic budget, for ranks whose select block is complete. -/
theorem selectSuper_log (h : rs.Inv) {r budget : Nat} (hr : 8192 * (r / 8192 + 1) ≤ C rs.data false rs.len)
    (hb : 9 ≤ budget) (hs : rs.supers.length ≤ 2 ^ (budget + 2)) :
    ∃ s, rs.selectSuper true r budget = .ok s ∧ IsSuper rs true r s := by
  have hpos := supers_pos h (b := false) (r := r) (by omega)
  have hj : r / 8192 + 1 ≤ C rs.data false rs.len / 8192 := by omega
  obtain ⟨e1, e2, h1, h2, h3, h4, h5⟩ := (h.sel true).ok (r / 8192) (by simp only [Bool.not_true]; omega)
  have hge := (h.sel true).ge (r / 8192 + 1) e2 h2 (by omega) (by simpa using hj)
  have hle := cumAt_true_le rs.data rs.len (8192 * (prj true e2 + 1))
  simp only [Bool.not_true] at h5
  unfold selectSuper
  rw [idx_of_some h1, ok_bind]
  simp only
  by_cases hl : rs.supers.length > prj true e1 + 1
  · rw [if_pos hl, superBefore_eq h true (by omega), ok_bind]
    by_cases hz : C rs.data (!true) (8192 * (prj true e1 + 1)) ≤ r
    · rw [if_pos hz]
      unfold searchSuper
      rw [idx_of_some h2, ok_bind]
      obtain ⟨s, g1, g2, g3, g4⟩ := searchSuperBin_log h r budget (prj true e1) (prj true e2) (by omega)
        (by omega) h3 (by omega) (by omega) (by omega)
      rw [g1, ok_bind]
      refine searchSuperLin_short h true r budget s (by omega) g2 g3 ?_
      have := C_mono rs.data false (i := 8192 * (s + 9)) (j := 8192 * (s + budget)) (by omega)
      simp only [Bool.not_true]
      omega
    · rw [if_neg hz]; exact ⟨_, rfl, by omega, by simp only [Bool.not_true]; omega, fun _ => by omega⟩
  · rw [if_neg hl]; exact ⟨_, rfl, by omega, by simp only [Bool.not_true]; omega, fun _ => by omega⟩

/-! ## the linear case -/

theorem searchSuperLin_slow (h : rs.Inv) (zero : Bool) {r a : Nat} (ha : a < rs.supers.length)
    (hc : C rs.data (!zero) (8192 * a) ≤ r) :
    ∀ fuel s, s + fuel ≤ a → rs.searchSuperLin zero r fuel s = .error .fuel := by
  intro fuel
  induction fuel with
  | zero => intro s _; rfl
  | succ fuel ih =>
    intro s hs
    unfold searchSuperLin
    have := C_mono rs.data (!zero) (i := 8192 * (s + 1)) (j := 8192 * a) (by omega)
    rw [if_pos (by omega), superBefore_eq h zero (by omega), ok_bind, if_pos (by omega)]
    exact ih (s + 1) (by omega)

/-- The binary search over the super blocks for ones never moves its lower bound. -/
theorem searchSuperBin_stuck (h : rs.Inv) {r s : Nat}
    (hk : ∀ m, s < m → m < rs.supers.length → r < C rs.data true (8192 * m) + 8192) :
    ∀ fuel upper, s ≤ upper → upper < rs.supers.length →
      rs.searchSuperBin false r fuel s upper = .error .fuel ∨ rs.searchSuperBin false r fuel s upper = .ok s := by
  intro fuel
  induction fuel with
  | zero => intro upper _ _; exact Or.inl rfl
  | succ fuel ih =>
    intro upper hsu hu
    unfold searchSuperBin
    rw [subR_of_le hsu, ok_bind]
    by_cases hd : upper - s > 8
    · rw [if_pos hd]
      simp only
      have hm : s + (upper - s) / 2 < rs.supers.length := by omega
      unfold searchSuperKey
      have hcp := C_compl rs.data (8192 * (s + (upper - s) / 2))
      have := hk _ (show s < s + (upper - s) / 2 by omega) hm
      rw [idx_of_some (h.sval _ hm), ok_bind, if_neg (by simp), subR_of_le (by omega), ok_bind,
        if_neg (by omega)]
      exact ih _ (by omega) (by omega)
    · rw [if_neg hd]; exact Or.inr rfl

theorem searchSuperBin_same (zero : Bool) (r fuel s : Nat) :
    rs.searchSuperBin zero r fuel s s = .error .fuel ∨ rs.searchSuperBin zero r fuel s s = .ok s := by
  cases fuel with
  | zero => exact Or.inl rfl
  | succ fuel =>
    unfold searchSuperBin
    rw [subR_of_le (Nat.le_refl s), ok_bind, if_neg (by omega)]
    exact Or.inr rfl

/-- For ones, and for zeros whose select block is incomplete, the search is linear in the distance from the
first bit of the select block. -/
theorem select_slow (h : rs.Inv) {zero : Bool} {r p q budget : Nat} (hp : IsPos rs.data (!zero) r p)
    (hpl : p < rs.len) (hq : IsPos rs.data (!zero) (8192 * (r / 8192)) q)
    (hk : zero = false ∨ C rs.data (!zero) rs.len < 8192 * (r / 8192 + 1))
    (hb1 : 1 ≤ budget) (hb : budget ≤ p / 8192 - q / 8192) :
    rs.select zero r budget = .error .fuel := by
  have hlt : r < C rs.data (!zero) rs.len := by
    have h1 := C_mono rs.data (!zero) (i := p + 1) (j := rs.len) (by omega)
    have h2 : C rs.data (!zero) (p + 1) = C rs.data (!zero) p + 1 := by
      unfold C; rw [cnt_succ]; rw [hp.1]; simp
    have h3 := hp.2
    omega
  have hwf := h.wf
  have hsl := h.slen
  have hrc : C rs.data (!zero) (8192 * (p / 8192)) ≤ r := by
    have := C_mono rs.data (!zero) (i := 8192 * (p / 8192)) (j := p) (by omega)
    have := hp.2
    omega
  have hpa : p / 8192 < rs.supers.length := by omega
  obtain ⟨e1, e2, h1, h2, h3, h4, h5⟩ := (h.sel zero).ok (r / 8192) (by apply Nat.div_le_div_right; omega)
  -- the hint is not behind the first bit of the select block
  have hhint : prj zero e1 ≤ q / 8192 := by
    refine Decidable.byContradiction fun hc => ?_
    have g1 := C_mono rs.data (!zero) (i := q + 1) (j := 8192 * prj zero e1) (by omega)
    have g2 : C rs.data (!zero) (q + 1) = C rs.data (!zero) q + 1 := by
      unfold C; rw [cnt_succ]; rw [hq.1]; simp
    have g3 := hq.2
    omega
  unfold select
  rw [rankTotal_eq h, if_neg (by omega)]
  unfold selectSuper
  have hz := C_mono rs.data (!zero) (i := 8192 * (prj zero e1 + 1)) (j := 8192 * (p / 8192)) (by omega)
  rw [idx_of_some h1, ok_bind]
  simp only
  rw [if_pos (show rs.supers.length > prj zero e1 + 1 by omega), superBefore_eq h zero (by omega), ok_bind,
    if_pos (by omega)]
  unfold searchSuper
  rw [idx_of_some h2, ok_bind]
  have hbin : rs.searchSuperBin zero r budget (prj zero e1) (prj zero e2) = .error .fuel ∨
      rs.searchSuperBin zero r budget (prj zero e1) (prj zero e2) = .ok (prj zero e1) := by
    cases zero with
    | false =>
      refine searchSuperBin_stuck h ?_ budget _ h3 (by omega)
      intro m hm hml
      by_cases h0 : r / 8192 = 0
      · omega
      · have hge := (h.sel false).ge (r / 8192) e1 h1 (by omega) (by
          simp only [Bool.not_false] at hlt ⊢
          apply Nat.div_le_div_right; omega)
        unfold cumAt at hge
        rw [if_neg (by simp), Nat.min_eq_left (by omega)] at hge
        have hcp := C_compl rs.data (8192 * (prj false e1 + 1))
        have := C_mono rs.data true (i := 8192 * (prj false e1 + 1)) (j := 8192 * m) (by omega)
        omega
    | true =>
      have hk : C rs.data false rs.len < 8192 * (r / 8192 + 1) := by
        rcases hk with hk | hk
        · cases hk
        · exact hk
      simp only [Bool.not_true] at hlt
      have hj : r / 8192 = C rs.data false rs.len / 8192 := by omega
      have := h.dummy e1 e2 (by rw [← hj]; exact h1) (by rw [← hj]; exact h2)
      have he : prj true e2 = prj true e1 := by simpa [prj] using this
      rw [he]
      exact searchSuperBin_same true r budget _
  rcases hbin with hbin | hbin
  · rw [hbin]; rfl
  · rw [hbin, ok_bind, searchSuperLin_slow h zero hpa hrc budget _ (by omega)]
    rfl

/-! ## the upper bound -/

/-- The binary search needs a logarithmic budget, for either kind of bit. -/
theorem searchSuperBin_any (h : rs.Inv) (zero : Bool) (r : Nat) :
    ∀ (fuel s upper : Nat), 1 ≤ fuel → upper - s ≤ 2 ^ (fuel + 2) → s ≤ upper → upper < rs.supers.length →
      C rs.data (!zero) (8192 * s) ≤ r →
      ∃ s', rs.searchSuperBin zero r fuel s upper = .ok s' ∧ s ≤ s' ∧ s' < rs.supers.length ∧
        C rs.data (!zero) (8192 * s') ≤ r := by
  intro fuel
  induction fuel with
  | zero => intro s upper h1; omega
  | succ fuel ih =>
    intro s upper _ hpow hsu hu hc
    unfold searchSuperBin
    rw [subR_of_le hsu, ok_bind]
    by_cases hd : upper - s > 8
    · rw [if_pos hd]
      simp only
      have hf0 : 1 ≤ fuel := by
        refine Decidable.byContradiction fun hc => ?_
        have : fuel = 0 := by omega
        subst this
        omega
      have hpow' : 2 ^ (fuel + 1 + 2) = 2 * 2 ^ (fuel + 2) := by
        rw [show fuel + 1 + 2 = (fuel + 2) + 1 by omega, Nat.pow_succ]; omega
      have hm : s + (upper - s) / 2 < rs.supers.length := by omega
      have hkey : ∃ z, rs.searchSuperKey zero (s + (upper - s) / 2) = .ok z ∧
          C rs.data (!zero) (8192 * (s + (upper - s) / 2)) ≤ z := by
        unfold searchSuperKey
        rw [idx_of_some (h.sval _ hm), ok_bind]
        cases zero with
        | true => exact ⟨_, rfl, by simp⟩
        | false =>
          have := C_compl rs.data (8192 * (s + (upper - s) / 2))
          simp only [Bool.false_eq_true, if_false, Bool.not_false]
          rw [subR_of_le (by omega)]
          exact ⟨_, rfl, by omega⟩
      obtain ⟨z, hz1, hz2⟩ := hkey
      rw [hz1, ok_bind]
      by_cases hzr : z ≤ r
      · rw [if_pos hzr]
        obtain ⟨s', g1, g2, g3⟩ := ih (s + (upper - s) / 2) upper hf0 (by omega) (by omega) hu (by omega)
        exact ⟨s', g1, by omega, g3⟩
      · rw [if_neg hzr]
        exact ih _ _ hf0 (by omega) (by omega) hm hc
    · rw [if_neg hd]
      exact ⟨s, rfl, Nat.le_refl s, by omega, hc⟩

/-- A query needs at most a logarithmic budget for the binary search and the distance between the last bit before its
select block and the result for the linear search. -/
theorem select_upper (h : rs.Inv) {zero : Bool} {r p q budget : Nat} (hp : IsPos rs.data (!zero) r p)
    (hpl : p < rs.len)
    (hq : (r < 8192 ∧ q = 0) ∨ (8192 ≤ r ∧ IsPos rs.data (!zero) (8192 * (r / 8192) - 1) q ∧ q < rs.len))
    (hs : rs.supers.length ≤ 2 ^ (budget + 2)) (hb : p / 8192 - q / 8192 < budget) :
    rs.select zero r budget = .ok p := by
  have hsucc : ∀ {a b : Nat}, IsPos rs.data (!zero) a b → C rs.data (!zero) (b + 1) = a + 1 := by
    intro a b hab
    have h2 : C rs.data (!zero) (b + 1) = C rs.data (!zero) b + 1 := by
      unfold C; rw [cnt_succ]; rw [hab.1]; simp
    rw [h2, show C rs.data (!zero) b = a from hab.2]
  have hlt : r < C rs.data (!zero) rs.len := by
    have h1 := C_mono rs.data (!zero) (i := p + 1) (j := rs.len) (by omega)
    have := hsucc hp
    omega
  have hpos := supers_pos h hlt
  obtain ⟨e1, e2, h1, h2, h3, h4, h5⟩ := (h.sel zero).ok (r / 8192) (by apply Nat.div_le_div_right; omega)
  have hhint : q / 8192 ≤ prj zero e1 := by
    rcases hq with ⟨_, rfl⟩ | ⟨hr, hq, hql⟩
    · omega
    · refine Decidable.byContradiction fun hc => ?_
      have hge : 8192 * (r / 8192) ≤ cumAt rs.data rs.len zero (8192 * (prj zero e1 + 1)) :=
        (h.sel zero).ge (r / 8192) e1 h1 (by omega) (by apply Nat.div_le_div_right; omega)
      have g1 := C_mono rs.data (!zero) (i := 8192 * (prj zero e1 + 1)) (j := q) (by omega)
      have g2 : C rs.data (!zero) q = 8192 * (r / 8192) - 1 := hq.2
      have g3 : cumAt rs.data rs.len zero (8192 * (prj zero e1 + 1)) = C rs.data (!zero) (8192 * (prj zero e1 + 1)) := by
        unfold cumAt
        rw [Nat.min_eq_left (by omega)]
        cases zero with
        | true => rfl
        | false =>
          have := C_compl rs.data (8192 * (prj false e1 + 1))
          rw [if_neg (by simp)]
          simp only [Bool.not_false]
          omega
      rw [g3] at hge
      omega
  have key : ∃ s, rs.selectSuper zero r budget = .ok s ∧ IsSuper rs zero r s := by
    unfold selectSuper
    rw [idx_of_some h1, ok_bind]
    simp only
    by_cases hl : rs.supers.length > prj zero e1 + 1
    · rw [if_pos hl, superBefore_eq h zero (by omega), ok_bind]
      by_cases hz : C rs.data (!zero) (8192 * (prj zero e1 + 1)) ≤ r
      · rw [if_pos hz]
        unfold searchSuper
        rw [idx_of_some h2, ok_bind]
        obtain ⟨s, g1, g2, g3, g4⟩ := searchSuperBin_any h zero r budget (prj zero e1) (prj zero e2) (by omega)
          (by omega) h3 (by omega) (by omega)
        rw [g1, ok_bind]
        refine searchSuperLin_short h zero r budget s (by omega) g3 g4 ?_
        have := C_mono rs.data (!zero) (i := p + 1) (j := 8192 * (s + budget)) (by omega)
        have := hsucc hp
        omega
      · rw [if_neg hz]; exact ⟨_, rfl, by omega, by omega, fun _ => by omega⟩
    · rw [if_neg hl]; exact ⟨_, rfl, by omega, by omega, fun _ => by omega⟩
  obtain ⟨s, s1, s2⟩ := key
  obtain ⟨p', p1, p2, p3⟩ := select_of_super h zero hlt s1 s2
  have hpp : p' = p := by
    rcases Nat.lt_trichotomy p' p with hc | hc | hc
    · have g1 := C_mono rs.data (!zero) (i := p' + 1) (j := p) (by omega)
      have g2 := hsucc p2
      have g3 : C rs.data (!zero) p = r := hp.2
      omega
    · exact hc
    · have g1 := C_mono rs.data (!zero) (i := p + 1) (j := p') (by omega)
      have g2 := hsucc hp
      have g3 : C rs.data (!zero) p' = r := p2.2
      omega
  rw [p1, hpp]

end RsVec
end Vers
