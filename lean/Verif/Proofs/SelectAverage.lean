import Verif.Proofs.RsIterSteps
import Verif.Proofs.BuildSteps

/-! # The sum of the steps of all select queries -/

set_option linter.unusedSimpArgs false
set_option linter.unusedSectionVars false

namespace Vers

variable [Profile]
open Counted Spec SelIter

namespace Counted

theorem steps_tick {α : Type} (x : R α) : (tick x).steps = 1 := rfl
theorem steps_free {α : Type} (x : R α) : (free x).steps = 0 := rfl
theorem steps_pure {α : Type} (a : α) : (pure a : Counted α).steps = 0 := rfl

end Counted

namespace RsVec
variable {rs : RsVec}

theorem selectSuperC_result (zero : Bool) (r : Nat) : (rs.selectSuperC zero r).result = rs.selectSuper zero r := by
  unfold selectSuperC selectSuper
  rw [result_bind]
  congr 1; funext e
  rw [result_ite]
  by_cases hd : rs.supers.length > prj zero e + 1
  · rw [if_pos hd, if_pos hd, result_bind]
    congr 1; funext z
    rw [result_ite, searchSuperC_result]; rfl
  · rw [if_neg hd, if_neg hd]; rfl

theorem selectC_result (zero : Bool) (r : Nat) : (rs.selectC zero r).result = rs.select zero r := by
  unfold selectC select
  rw [result_ite]
  congr 1
  rw [result_bind, selectSuperC_result]
  congr 1; funext sb
  rw [result_bind]
  congr 1; funext z
  rw [result_bind]
  congr 1; funext rk
  rw [result_bind]
  congr 1; funext b
  rw [result_bind]
  congr 1; funext z
  rw [result_bind]
  rfl

/-- A search from the hint takes at most two steps for each super block of the select block. -/
theorem searchSuperC_upper (h : rs.Inv) (zero : Bool) {r : Nat} (hr : r < C rs.data (!zero) rs.len)
    {e : Nat × Nat} (he : rs.selects[r / 8192]? = some e) {s : Nat} (hs : IsSuper rs zero r s) :
    (rs.searchSuperC zero (prj zero e) r).steps ≤ 2 * (upper rs zero (r / 8192) - hint rs zero (r / 8192)) + 2 := by
  have hpos := supers_pos h hr
  obtain ⟨s', g1, g2⟩ := searchSuper_eq h zero hr he
  cases hs.unique zero g2
  obtain ⟨a1, a2, a3⟩ := hint_le h hr hs
  obtain ⟨e1, e2, h1, h2, h3, h4, h5⟩ := (h.sel zero).ok (r / 8192) (by apply Nat.div_le_div_right; omega)
  rw [he] at h1; cases h1
  have hh : hint rs zero (r / 8192) = prj zero e := by unfold hint; rw [he]; rfl
  have hh2 : hint rs zero (r / 8192 + 1) = prj zero e2 := by unfold hint; rw [h2]; rfl
  have hu : prj zero e2 ≤ upper rs zero (r / 8192) := by
    unfold upper
    split
    · rw [hh2]; exact Nat.le_refl _
    · omega
  have hself : rs.supers.length + 1 ≤ 2 ^ (rs.supers.length + 1 + 2) := by
    have h1 : rs.supers.length + 1 < 2 ^ (rs.supers.length + 1) := Nat.lt_two_pow_self
    have h2 : 2 ^ (rs.supers.length + 1) ≤ 2 ^ (rs.supers.length + 1 + 2) :=
      Nat.pow_le_pow_right (by omega) (by omega)
    omega
  have hd : prj zero e2 - prj zero e ≤ 2 ^ (prj zero e2 - prj zero e + 3) := by
    have h1 : prj zero e2 - prj zero e < 2 ^ (prj zero e2 - prj zero e) := Nat.lt_two_pow_self
    have h2 : 2 ^ (prj zero e2 - prj zero e) ≤ 2 ^ (prj zero e2 - prj zero e + 3) :=
      Nat.pow_le_pow_right (by omega) (by omega)
    omega
  obtain ⟨b, b1, b2, b3, b4⟩ := searchSuperBin_any h zero r (rs.supers.length + 1) (prj zero e) (prj zero e2)
    (by omega) (by omega) h3 (by omega) (by omega)
  have hb := searchSuperBinC_steps (rs := rs) zero r (prj zero e2 - prj zero e) (rs.supers.length + 1)
    (prj zero e) (prj zero e2) h3 hd
  unfold searchSuper at g1
  rw [idx_of_some h2, ok_bind, b1, ok_bind] at g1
  obtain ⟨l1, l2, l3⟩ := searchSuperLinC_steps zero r _ _ _ g1
  unfold searchSuperC
  rw [tick_of (idx_of_some h2), bind_of (by rw [searchSuperBinC_result, b1])]
  simp only
  omega

theorem selectSuperC_steps (h : rs.Inv) (zero : Bool) {r : Nat} (hr : r < C rs.data (!zero) rs.len) {s : Nat}
    (s1 : rs.selectSuper zero r = .ok s) (s2 : IsSuper rs zero r s) :
    (rs.selectSuperC zero r).steps ≤ 4 + 2 * (upper rs zero (r / 8192) - hint rs zero (r / 8192)) ∧
      ((zero = false ∨ C rs.data (!zero) rs.len < 8192 * (r / 8192 + 1)) →
        s - hint rs zero (r / 8192) ≤ (rs.selectSuperC zero r).steps) := by
  have hpos := supers_pos h hr
  obtain ⟨e, e2, he, -, -, h4, -⟩ := (h.sel zero).ok (r / 8192) (by apply Nat.div_le_div_right; omega)
  have hh : hint rs zero (r / 8192) = prj zero e := by unfold hint; rw [he]; rfl
  unfold selectSuper at s1
  unfold selectSuperC
  rw [idx_of_some he, ok_bind] at s1
  rw [tick_of (idx_of_some he)]
  simp only at s1 ⊢
  by_cases hl : rs.supers.length > prj zero e + 1
  · obtain ⟨z, hsb⟩ : ∃ z, rs.superBefore zero (prj zero e + 1) = .ok z := ⟨_, superBefore_eq h zero hl⟩
    rw [if_pos hl, hsb, ok_bind] at s1
    rw [if_pos hl, tick_of hsb]
    simp only
    by_cases hz : z ≤ r
    · rw [if_pos hz] at s1 ⊢
      have h1 := searchSuperC_upper h zero hr he s2
      refine ⟨by omega, fun hk => ?_⟩
      have := (searchSuperC_steps h zero hr he s2).2.2 hk
      omega
    · rw [if_neg hz] at s1 ⊢
      have hs : prj zero e = s := by cases s1; rfl
      rw [steps_pure]
      exact ⟨by omega, fun _ => by omega⟩
  · rw [if_neg hl] at s1 ⊢
    have hs : prj zero e = s := by cases s1; rfl
    rw [steps_pure]
    exact ⟨by omega, fun _ => by omega⟩

theorem selectC_super (h : rs.Inv) (zero : Bool) {r : Nat} (hr : r < C rs.data (!zero) rs.len) {s q : Nat}
    (s1 : rs.selectSuper zero r = .ok s) (q1 : rs.select zero r = .ok q) :
    (rs.selectC zero r).steps = (rs.selectSuperC zero r).steps + 4 := by
  have hq : (rs.selectC zero r).result = .ok q := by rw [selectC_result, q1]
  unfold selectC at hq ⊢
  by_cases ht : r ≥ (if zero then rs.rank0 else rs.rank1)
  · rw [rankTotal_eq h] at ht; omega
  · rw [if_neg ht] at hq ⊢
    rw [bind_of (by rw [selectSuperC_result, s1])] at hq ⊢
    simp only at hq ⊢
    obtain ⟨z, -, hq, e⟩ := ok_split hq
    rw [e]
    obtain ⟨rk, -, hq, e⟩ := ok_split hq
    rw [e]
    obtain ⟨b, -, hq, e⟩ := ok_split hq
    rw [e]
    obtain ⟨z', -, hq, e⟩ := ok_split hq
    rw [e]
    obtain ⟨rk', -, hq, e⟩ := ok_split hq
    rw [e]
    simp only [steps_tick, steps_free]

/-- The steps of one query. -/
theorem selectC_steps (h : rs.Inv) (zero : Bool) {r : Nat} (hr : r < C rs.data (!zero) rs.len) :
    ∃ s, IsSuper rs zero r s ∧
      (rs.selectC zero r).steps ≤ 8 + 2 * (upper rs zero (r / 8192) - hint rs zero (r / 8192)) ∧
      ((zero = false ∨ C rs.data (!zero) rs.len < 8192 * (r / 8192 + 1)) →
        s - hint rs zero (r / 8192) ≤ (rs.selectC zero r).steps) := by
  obtain ⟨s, s1, s2⟩ := selectSuper_eq h zero hr
  obtain ⟨q, q1, -⟩ := select_of_super h zero hr s1 s2
  obtain ⟨a, b⟩ := selectSuperC_steps h zero hr s1 s2
  have hc := selectC_super h zero hr s1 q1
  exact ⟨s, s2, by omega, fun hk => by have := b hk; omega⟩

/-- The steps of the queries for all ranks below `n`. -/
theorem sum_selectC (h : rs.Inv) (zero : Bool) : ∀ n, n ≤ C rs.data (!zero) rs.len →
    ((List.range n).map fun k => (rs.selectC zero k).steps).sum ≤
      8 * n + 2 * (if n < C rs.data (!zero) rs.len then spent rs zero n else 8192 * (rs.supers.length - 1))
  | 0, _ => by rw [List.range_zero, List.map_nil, List.sum_nil]; exact Nat.zero_le _
  | n + 1, hn => by
    have ih := sum_selectC h zero n (by omega)
    rw [if_pos (by omega)] at ih
    obtain ⟨s, s1, s2, -⟩ := selectC_steps h zero (r := n) (by omega)
    have := spent_step_upper h (by omega) s1
    rw [List.range_succ, List.map_append, List.sum_append]
    simp only [List.map_cons, List.map_nil, List.sum_cons, List.sum_nil]
    omega

end RsVec
end Vers
