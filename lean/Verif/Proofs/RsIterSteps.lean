import Verif.Model.RsIterSteps
import Verif.Proofs.RsIter
import Verif.Proofs.Time
import Verif.Proofs.WaveletSteps

/-! # The number of steps of the select iterators -/

set_option linter.unusedSimpArgs false

namespace Vers

variable [Profile]
open Counted Spec

namespace Counted

omit [Profile] in
theorem result_bind {α β : Type} (x : Counted α) (f : α → Counted β) :
    (x >>= f).result = x.result >>= fun a => (f a).result := by
  show (match x.result with
    | .ok a => (⟨x.steps + (f a).steps, (f a).result⟩ : Counted β)
    | .error e => ⟨x.steps, .error e⟩).result = _
  rcases x.result with e | a <;> rfl

omit [Profile] in
theorem bind_of {α β : Type} {x : Counted α} {a : α} (h : x.result = .ok a) (f : α → Counted β) :
    (x >>= f) = ⟨x.steps + (f a).steps, (f a).result⟩ := by
  show (match x.result with
    | .ok a => (⟨x.steps + (f a).steps, (f a).result⟩ : Counted β)
    | .error e => ⟨x.steps, .error e⟩) = _
  rw [h]

omit [Profile] in
theorem free_of {α β : Type} {y : R α} {a : α} (h : y = .ok a) (f : α → Counted β) :
    (free y >>= f) = f a := by
  rw [bind_of (show (free y).result = .ok a from h)]
  show (⟨0 + _, _⟩ : Counted β) = _
  rw [Nat.zero_add]

omit [Profile] in
theorem tick_of {α β : Type} {y : R α} {a : α} (h : y = .ok a) (f : α → Counted β) :
    (tick y >>= f) = ⟨1 + (f a).steps, (f a).result⟩ :=
  bind_of (show (tick y).result = .ok a from h) f

omit [Profile] in
theorem result_ite {α : Type} {c : Prop} [Decidable c] (x y : Counted α) :
    (if c then x else y).result = if c then x.result else y.result := by
  by_cases h : c <;> simp [h]

end Counted

namespace RsVec
variable {rs : RsVec}

/-! ## same results -/

theorem searchSuperBinC_result (zero : Bool) (r : Nat) : ∀ fuel s upper,
    (rs.searchSuperBinC zero r fuel s upper).result = rs.searchSuperBin zero r fuel s upper
  | 0, _, _ => rfl
  | fuel + 1, s, upper => by
    unfold searchSuperBinC searchSuperBin
    rw [result_bind]
    congr 1; funext d
    rw [result_ite]
    by_cases hd : d > 8
    · rw [if_pos hd, if_pos hd, result_bind]
      congr 1; funext z
      rw [result_ite, searchSuperBinC_result zero r fuel, searchSuperBinC_result zero r fuel]
    · rw [if_neg hd, if_neg hd]; rfl

theorem searchSuperLinC_result (zero : Bool) (r : Nat) : ∀ fuel s,
    (rs.searchSuperLinC zero r fuel s).result = rs.searchSuperLin zero r fuel s
  | 0, _ => rfl
  | fuel + 1, s => by
    unfold searchSuperLinC searchSuperLin
    rw [result_ite]
    by_cases hd : rs.supers.length > s + 1
    · rw [if_pos hd, if_pos hd, result_bind]
      congr 1; funext z
      rw [result_ite, searchSuperLinC_result zero r fuel]; rfl
    · rw [if_neg hd, if_neg hd]; rfl

theorem searchSuperC_result (zero : Bool) (s r : Nat) :
    (rs.searchSuperC zero s r).result = rs.searchSuper zero s r := by
  unfold searchSuperC searchSuper
  rw [result_bind]
  congr 1; funext e
  rw [result_bind, searchSuperBinC_result]
  congr 1; funext b
  exact searchSuperLinC_result zero r _ b

/-! ## the steps of the searches -/

theorem searchSuperBinC_steps (zero : Bool) (r : Nat) : ∀ k fuel s upper, s ≤ upper → upper - s ≤ 2 ^ (k + 3) →
    (rs.searchSuperBinC zero r fuel s upper).steps ≤ k
  | k, 0, _, _, _, _ => Nat.zero_le _
  | k, fuel + 1, s, upper, hle, h => by
    unfold searchSuperBinC
    rw [free_of (subR_of_le hle)]
    by_cases hd8 : upper - s > 8
    · rw [if_pos hd8]
      cases k with
      | zero => omega
      | succ k =>
        have hp : 2 ^ (k + 1 + 3) = 2 * 2 ^ (k + 3) := by
          rw [show k + 1 + 3 = (k + 3) + 1 by omega, Nat.pow_succ]; omega
        rcases hz : rs.searchSuperKey zero (s + (upper - s) / 2) with e | z
        · show 1 ≤ k + 1; omega
        · rw [tick_of rfl]
          show 1 + _ ≤ k + 1
          by_cases hzr : z ≤ r
          · rw [if_pos hzr]
            have := searchSuperBinC_steps zero r k fuel (s + (upper - s) / 2) upper (by omega) (by omega)
            omega
          · rw [if_neg hzr]
            have := searchSuperBinC_steps zero r k fuel s (s + (upper - s) / 2) (by omega) (by omega)
            omega
    · rw [if_neg hd8]; exact Nat.zero_le _

/-- the linear search takes a step for every super block it passes -/
theorem searchSuperLinC_steps (zero : Bool) (r : Nat) : ∀ fuel s s', rs.searchSuperLin zero r fuel s = .ok s' →
    s ≤ s' ∧ (rs.searchSuperLinC zero r fuel s).steps ≤ s' - s + 1 ∧
      s' - s ≤ (rs.searchSuperLinC zero r fuel s).steps
  | 0, _, _, h => by unfold searchSuperLin at h; cases h
  | fuel + 1, s, s', h => by
    unfold searchSuperLin at h
    unfold searchSuperLinC
    by_cases hd : rs.supers.length > s + 1
    · rw [if_pos hd] at h ⊢
      rcases hz : rs.superBefore zero (s + 1) with e | z
      · rw [hz] at h; cases h
      · rw [hz, ok_bind] at h
        rw [tick_of rfl]
        simp only
        by_cases hzr : z ≤ r
        · rw [if_pos hzr] at h ⊢
          have := searchSuperLinC_steps zero r fuel (s + 1) s' h
          omega
        · rw [if_neg hzr] at h ⊢
          cases h
          refine ⟨Nat.le_refl _, ?_, ?_⟩
          · show 1 + 0 ≤ _; omega
          · omega
    · rw [if_neg hd] at h ⊢
      cases h
      exact ⟨Nat.le_refl _, Nat.zero_le _, by omega⟩

/-- the super block of a bit is unique -/
theorem IsSuper.unique (zero : Bool) {r s s' : Nat} (h : IsSuper rs zero r s) (h' : IsSuper rs zero r s') : s = s' := by
  rcases Nat.lt_trichotomy s s' with hc | hc | hc
  · have g := h.2.2 (by have := h'.1; omega)
    have := C_mono rs.data (!zero) (i := 8192 * (s + 1)) (j := 8192 * s') (by omega)
    have := h'.2.1
    omega
  · exact hc
  · have g := h'.2.2 (by have := h.1; omega)
    have := C_mono rs.data (!zero) (i := 8192 * (s' + 1)) (j := 8192 * s) (by omega)
    have := h.2.1
    omega

/-- A search from the hint `prj zero e`: a logarithm, and the distance. -/
theorem searchSuperC_steps (h : rs.Inv) (zero : Bool) {r : Nat} (hr : r < C rs.data (!zero) rs.len)
    {e : Nat × Nat} (he : rs.selects[r / 8192]? = some e) {s : Nat} (hs : IsSuper rs zero r s) :
    (rs.searchSuperC zero (prj zero e) r).result = .ok s ∧
      (rs.searchSuperC zero (prj zero e) r).steps ≤ Nat.log2 rs.supers.length + (s - prj zero e) + 2 ∧
      ((zero = false ∨ C rs.data (!zero) rs.len < 8192 * (r / 8192 + 1)) →
        s - prj zero e ≤ (rs.searchSuperC zero (prj zero e) r).steps) := by
  have hpos := supers_pos h hr
  obtain ⟨s', g1, g2⟩ := searchSuper_eq h zero hr he
  cases hs.unique zero g2
  obtain ⟨e1, e2, h1, h2, h3, h4, h5⟩ := (h.sel zero).ok (r / 8192) (by apply Nat.div_le_div_right; omega)
  rw [he] at h1; cases h1
  refine ⟨by rw [searchSuperC_result, g1], ?_⟩
  have hlog : rs.supers.length < 2 ^ (Nat.log2 rs.supers.length + 1) := Nat.lt_log2_self
  have hlog' : 2 ^ (Nat.log2 rs.supers.length + 1) ≤ 2 ^ (Nat.log2 rs.supers.length + 3) :=
    Nat.pow_le_pow_right (by omega) (by omega)
  have hself : rs.supers.length + 1 ≤ 2 ^ (rs.supers.length + 1 + 2) := by
    have h1 : rs.supers.length + 1 < 2 ^ (rs.supers.length + 1) := Nat.lt_two_pow_self
    have h2 : 2 ^ (rs.supers.length + 1) ≤ 2 ^ (rs.supers.length + 1 + 2) :=
      Nat.pow_le_pow_right (by omega) (by omega)
    omega
  obtain ⟨b, b1, b2, b3, b4⟩ := searchSuperBin_any h zero r (rs.supers.length + 1) (prj zero e) (prj zero e2)
    (by omega) (by omega) h3 (by omega) (by omega)
  have hb := searchSuperBinC_steps (rs := rs) zero r (Nat.log2 rs.supers.length) (rs.supers.length + 1)
    (prj zero e) (prj zero e2) h3 (by omega)
  unfold searchSuper at g1
  rw [idx_of_some h2, ok_bind, b1, ok_bind] at g1
  obtain ⟨l1, l2, l3⟩ := searchSuperLinC_steps zero r _ _ _ g1
  unfold searchSuperC
  rw [tick_of (idx_of_some h2), bind_of (by rw [searchSuperBinC_result, b1])]
  simp only
  refine ⟨by omega, fun hk => ?_⟩
  have hbin : b = prj zero e := by
    cases zero with
    | false =>
      have := searchSuperBin_stuck h (r := r) (s := prj false e) (by
        intro m hm hml
        by_cases h0 : r / 8192 = 0
        · omega
        · have hge := (h.sel false).ge (r / 8192) e he (by omega) (by
            simp only [Bool.not_false] at hr ⊢
            apply Nat.div_le_div_right; omega)
          have := h.wf
          have := h.slen
          unfold cumAt at hge
          rw [if_neg (by simp), Nat.min_eq_left (by omega)] at hge
          have hcp := C_compl rs.data (8192 * (prj false e + 1))
          have := C_mono rs.data true (i := 8192 * (prj false e + 1)) (j := 8192 * m) (by omega)
          omega) (rs.supers.length + 1) (prj false e2) h3 (by omega)
      rw [b1] at this
      rcases this with h | h <;> cases h
      rfl
    | true =>
      have hk : C rs.data false rs.len < 8192 * (r / 8192 + 1) := by
        rcases hk with hk | hk
        · cases hk
        · exact hk
      simp only [Bool.not_true] at hr
      have hj : r / 8192 = C rs.data false rs.len / 8192 := by omega
      have := h.dummy e e2 (by rw [← hj]; exact he) (by rw [← hj]; exact h2)
      have hee : prj true e2 = prj true e := by simpa [prj] using this
      rw [hee] at b1
      have := searchSuperBin_same (rs := rs) true r (rs.supers.length + 1) (prj true e)
      rw [b1] at this
      rcases this with h | h <;> cases h
      rfl
  omega

end RsVec

namespace SelIter
open RsVec
variable {rs : RsVec} {zero : Bool}

theorem missSuperC_result (hint r : Nat) : (missSuperC rs zero hint r).result = missSuper rs zero hint r := by
  unfold missSuperC missSuper
  rw [result_bind, searchSuperC_result]
  congr 1; funext s
  rw [result_bind]
  congr 1; funext z
  rw [result_bind]; rfl

theorem fwdLocateC_result (it : SelIter) : (fwdLocateC rs zero it).result = fwdLocate rs zero it := by
  unfold fwdLocateC fwdLocate
  rw [result_bind]
  congr 1; funext e
  rw [result_bind]
  congr 1; funext hit
  rw [result_ite, missSuperC_result]
  cases hit with
  | true =>
    rw [if_pos rfl, if_pos rfl, result_bind]
    congr 1; funext z
    rw [result_bind]
    congr 1; funext r
    rw [result_bind]; rfl
  | false => rw [if_neg (by simp), if_neg (by simp)]

theorem nextC_result (it : SelIter) : (nextC rs zero it).result = next rs zero it := by
  unfold nextC next
  cases it.nextRankBack with
  | none => rfl
  | some back =>
    simp only
    rw [result_ite, result_bind, fwdLocateC_result]
    congr 1
    congr 1; funext t
    rw [result_bind]; rfl

omit [Profile] in
theorem isSuper_of_pos (h : rs.Inv) {r p : Nat} (hp : IsPos rs.data (!zero) r p) (hl : p < rs.len) :
    IsSuper rs zero r (p / 8192) := by
  have hwf := h.wf
  have hsl := h.slen
  have h2 : C rs.data (!zero) (p + 1) = C rs.data (!zero) p + 1 := by
    unfold C; rw [cnt_succ]; rw [hp.1]; simp
  have h3 : C rs.data (!zero) p = r := hp.2
  refine ⟨by omega, ?_, fun _ => ?_⟩
  · have := C_mono rs.data (!zero) (i := 8192 * (p / 8192)) (j := p) (by omega)
    omega
  · have := C_mono rs.data (!zero) (i := p + 1) (j := 8192 * (p / 8192 + 1)) (by omega)
    omega

theorem isPos_of_positions (h : rs.Inv) {r p : Nat} (hp : (positions (!zero) rs.intoBitVec.bits)[r]? = some p) :
    IsPos rs.data (!zero) r p ∧ p < rs.len := by
  have hr : r < C rs.data (!zero) rs.len := by
    rw [← length_positions_eq]
    exact (List.getElem?_eq_some_iff.mp hp).1
  obtain ⟨s, s1, s2⟩ := selectSuper_eq h zero hr
  obtain ⟨q, q1, q2, q3⟩ := select_of_super h zero hr s1 s2
  have := positions_of_pos hr q2
  rw [hp] at this
  cases this
  exact ⟨q2, q3⟩

/-- the state of a fresh iterator -/
theorem new_state (h : rs.Inv) : ∃ it, new rs zero = .ok it ∧ it.Inv rs zero ∧ it.nextRank = 0 ∧ it.lastSuper = 0 ∧
    (0 < C rs.data (!zero) rs.len → it.nextRankBack = some (C rs.data (!zero) rs.len - 1)) := by
  obtain ⟨it, i1, ⟨i2, -⟩, i4⟩ := new_rel (zero := zero) h
  refine ⟨it, i1, i2, i4, ?_⟩
  have hwf := h.wf
  have hsl := h.slen
  have hbl := h.blen
  unfold new at i1
  by_cases h0 : rs.len = 0
  · rw [if_pos h0] at i1
    cases i1
    have := C_le rs.data (!zero) rs.len
    exact ⟨rfl, fun _ => by omega⟩
  · rw [if_neg h0, subR_of_le (by omega), ok_bind, subR_of_le (by omega), ok_bind, rankTotal_eq h] at i1
    cases i1
    exact ⟨rfl, fun hc => by simp only [predOpt]; rw [if_pos hc]⟩

/-! ## one call -/

/-- the search starts at the select block -/
def hint (rs : RsVec) (zero : Bool) (j : Nat) : Nat := ((rs.selects[j]?).map (prj zero)).getD 0

/-- the cached super block is the last one, or does not contain the next bit -/
def Miss (rs : RsVec) (zero : Bool) (it : SelIter) : Prop :=
  it.lastSuper + 1 < rs.supers.length → C rs.data (!zero) (8192 * (it.lastSuper + 1)) ≤ it.nextRank

theorem nextC_cost (h : rs.Inv) {it : SelIter} (hi : it.Inv rs zero) {x : Nat}
    (hb : it.nextRankBack = some x) (hx : it.nextRank ≤ x) :
    ∃ it' p, (nextC rs zero it).result = .ok (it', some p) ∧ IsPos rs.data (!zero) it.nextRank p ∧
      it'.nextRank = it.nextRank + 1 ∧ it'.nextRankBack = some x ∧ it'.Inv rs zero ∧
      IsSuper rs zero it.nextRank it'.lastSuper ∧
      (¬Miss rs zero it → it'.lastSuper = it.lastSuper ∧ (nextC rs zero it).steps ≤ 6) ∧
      (Miss rs zero it → (nextC rs zero it).steps ≤
        6 + Nat.log2 rs.supers.length + (it'.lastSuper - hint rs zero (it.nextRank / 8192))) ∧
      (Miss rs zero it → (zero = false ∨ C rs.data (!zero) rs.len < 8192 * (it.nextRank / 8192 + 1)) →
        it'.lastSuper - hint rs zero (it.nextRank / 8192) ≤ (nextC rs zero it).steps) := by
  have hg := hi x hb
  have hk : it.nextRank < C rs.data (!zero) rs.len := Nat.lt_of_le_of_lt hx hg.xlt
  have hsl := h.slen
  have hbl := h.blen
  have hlb := hg.lb
  have hls := hg.ls
  have hlsc := hg.lsc
  obtain ⟨e, _, he, _⟩ := (h.sel zero).ok (it.nextRank / 8192) (by apply Nat.div_le_div_right; omega)
  have hh : hint rs zero (it.nextRank / 8192) = prj zero e := by unfold hint; rw [he]; rfl
  obtain ⟨it', p, n1, n2, n3, n4, n5⟩ := next_some h hi hb hx
  obtain ⟨t, t1, t2⟩ := fwdLocate_eq h hg hx
  obtain ⟨q, b, p1, -⟩ := finish_eq h hk t2
  have hl' : it'.lastSuper = t.1 := by
    unfold next at n1
    rw [hb] at n1
    simp only at n1
    rw [rankTotal_eq h, if_neg (by omega), t1, ok_bind, p1, ok_bind] at n1
    cases n1; rfl
  have hst : (nextC rs zero it).steps = (fwdLocateC rs zero it).steps + 1 := by
    unfold nextC
    rw [hb]
    simp only
    rw [rankTotal_eq h, if_neg (by omega), bind_of (by rw [fwdLocateC_result, t1]), tick_of p1]
    show _ + (1 + 0) = _
    omega
  refine ⟨it', p, by rw [nextC_result, n1], n2, n3, n4, n5, by rw [hl']; exact t2.1, ?_⟩
  rw [hl', hst, hh]
  have hhit : (Miss rs zero it → fwdSuperHit rs zero it = .ok false) ∧
      (¬Miss rs zero it → fwdSuperHit rs zero it = .ok true) := by
    unfold fwdSuperHit Miss
    by_cases hl : rs.supers.length > it.lastSuper + 1
    · rw [if_pos hl, superBefore_eq h zero (by omega), ok_bind, pure_eq_ok]
      refine ⟨fun hm => ?_, fun hm => ?_⟩
      · have := hm hl
        rw [decide_eq_false (by omega)]
      · have : ¬C rs.data (!zero) (8192 * (it.lastSuper + 1)) ≤ it.nextRank := fun hc => hm fun _ => hc
        rw [decide_eq_true (by omega)]
    · rw [if_neg hl]
      exact ⟨fun _ => rfl, fun hm => absurd (fun h => absurd h hl) hm⟩
  obtain ⟨hm, hn⟩ := hhit
  refine ⟨fun hc => ?_, ?_⟩
  · have hlt : it.lastSuper + 1 < rs.supers.length := by
      refine Decidable.byContradiction fun hl => hc fun h => absurd h hl
    unfold fwdLocate at t1
    unfold fwdLocateC
    rw [idx_of_some he, ok_bind, hn hc, ok_bind, if_pos rfl, superBefore_eq h zero (by omega), ok_bind,
      subR_of_le hlsc, ok_bind] at t1
    rw [tick_of (idx_of_some he), tick_of (hn hc), if_pos rfl, tick_of (superBefore_eq h zero (by omega)),
      free_of (subR_of_le hlsc)]
    obtain ⟨bh, hbh, t3⟩ := bind_eq_ok.mp t1
    rw [tick_of hbh]
    refine ⟨?_, ?_⟩
    · unfold useBlock at t3
      cases bh with
      | true =>
        rw [if_pos rfl] at t3
        obtain ⟨z, -, t3⟩ := bind_eq_ok.mp t3
        obtain ⟨r, -, t3⟩ := bind_eq_ok.mp t3
        cases t3; rfl
      | false =>
        rw [if_neg (by simp)] at t3
        cases t3; rfl
    · show 1 + (1 + (1 + (1 + 1))) + 1 ≤ 6
      omega
  · suffices Miss rs zero it →
        (fwdLocateC rs zero it).steps = (rs.searchSuperC zero (prj zero e) it.nextRank).steps + 3 by
      obtain ⟨-, s2, s3⟩ := searchSuperC_steps h zero hk he t2.1
      refine ⟨fun hc => ?_, fun hc hz => ?_⟩
      · have := this hc; omega
      · have := this hc; have := s3 hz; omega
    intro hc
    obtain ⟨s1, -⟩ := searchSuperC_steps h zero hk he t2.1
    unfold fwdLocateC
    rw [tick_of (idx_of_some he), tick_of (hm hc), if_neg (by simp)]
    unfold missSuperC
    rw [bind_of s1, tick_of (superBefore_eq h zero t2.1.1), free_of (subR_of_le t2.1.2.1)]
    show 1 + (1 + (_ + (1 + 0))) = _
    omega

/-! ## a loop of calls -/

/-- the end of the search interval of a select block, or the last super block -/
def upper (rs : RsVec) (zero : Bool) (j : Nat) : Nat :=
  if 8192 * (j + 1) ≤ C rs.data (!zero) rs.len then hint rs zero (j + 1) else rs.supers.length - 1

omit [Profile] in
theorem hint_le (h : rs.Inv) {r s : Nat} (hr : r < C rs.data (!zero) rs.len) (hs : IsSuper rs zero r s) :
    hint rs zero (r / 8192) ≤ s ∧ s ≤ upper rs zero (r / 8192) ∧ upper rs zero (r / 8192) < rs.supers.length := by
  have hpos := supers_pos h hr
  have hwf := h.wf
  have hsl := h.slen
  obtain ⟨e1, e2, h1, h2, h3, h4, h5⟩ := (h.sel zero).ok (r / 8192) (by apply Nat.div_le_div_right; omega)
  have hh : hint rs zero (r / 8192) = prj zero e1 := by unfold hint; rw [h1]; rfl
  have hh2 : hint rs zero (r / 8192 + 1) = prj zero e2 := by unfold hint; rw [h2]; rfl
  obtain ⟨s1, s2, s3⟩ := hs
  refine ⟨?_, ?_, ?_⟩
  · rw [hh]
    refine Decidable.byContradiction fun hc => ?_
    have := s3 (by omega)
    have := C_mono rs.data (!zero) (i := 8192 * (s + 1)) (j := 8192 * prj zero e1) (by omega)
    omega
  · unfold upper
    by_cases hc : 8192 * (r / 8192 + 1) ≤ C rs.data (!zero) rs.len
    · rw [if_pos hc, hh2]
      refine Decidable.byContradiction fun hlt => ?_
      have hge : 8192 * (r / 8192 + 1) ≤ cumAt rs.data rs.len zero (8192 * (prj zero e2 + 1)) :=
        (h.sel zero).ge (r / 8192 + 1) e2 h2 (by omega) (by omega)
      have g1 := C_mono rs.data (!zero) (i := 8192 * (prj zero e2 + 1)) (j := 8192 * s) (by omega)
      have g3 : cumAt rs.data rs.len zero (8192 * (prj zero e2 + 1)) = C rs.data (!zero) (8192 * (prj zero e2 + 1)) := by
        unfold cumAt
        rw [Nat.min_eq_left (by omega)]
        cases zero with
        | true => rfl
        | false =>
          have := C_compl rs.data (8192 * (prj false e2 + 1))
          rw [if_neg (by simp)]
          simp only [Bool.not_false]
          omega
      omega
    · rw [if_neg hc]; omega
  · unfold upper
    split
    · rw [hh2]; omega
    · omega

/-- the sum of the distances of the first `r` bits from their hints is at most this -/
def spent (rs : RsVec) (zero : Bool) (r : Nat) : Nat :=
  8192 * hint rs zero (r / 8192) + (r % 8192) * (upper rs zero (r / 8192) - hint rs zero (r / 8192))

omit [Profile] in
theorem spent_step_upper (h : rs.Inv) {r s : Nat} (hr : r < C rs.data (!zero) rs.len) (hs : IsSuper rs zero r s) :
    spent rs zero r + (upper rs zero (r / 8192) - hint rs zero (r / 8192)) ≤
      if r + 1 < C rs.data (!zero) rs.len then spent rs zero (r + 1) else 8192 * (rs.supers.length - 1) := by
  obtain ⟨a1, a2, a3⟩ := hint_le h hr hs
  have hsum : spent rs zero r + (upper rs zero (r / 8192) - hint rs zero (r / 8192)) =
      8192 * hint rs zero (r / 8192) + (r % 8192 + 1) * (upper rs zero (r / 8192) - hint rs zero (r / 8192)) := by
    unfold spent; rw [Nat.add_mul (r % 8192) 1, Nat.one_mul, Nat.add_assoc]
  by_cases hm : r % 8192 = 8191
  · have hfull : spent rs zero r + (upper rs zero (r / 8192) - hint rs zero (r / 8192)) =
        8192 * upper rs zero (r / 8192) := by rw [hsum, hm]; omega
    split
    · rename_i hlt
      have hup : upper rs zero (r / 8192) = hint rs zero (r / 8192 + 1) := by
        unfold upper; rw [if_pos (by omega)]
      have hn : spent rs zero (r + 1) = 8192 * hint rs zero (r / 8192 + 1) := by
        unfold spent
        rw [show (r + 1) / 8192 = r / 8192 + 1 by omega, show (r + 1) % 8192 = 0 by omega]
        omega
      omega
    · omega
  · split
    · have hn : spent rs zero (r + 1) =
          8192 * hint rs zero (r / 8192) + (r % 8192 + 1) * (upper rs zero (r / 8192) - hint rs zero (r / 8192)) := by
        unfold spent
        rw [show (r + 1) / 8192 = r / 8192 by omega, show (r + 1) % 8192 = r % 8192 + 1 by omega]
      omega
    · have : (r % 8192 + 1) * (upper rs zero (r / 8192) - hint rs zero (r / 8192)) ≤
          8192 * (upper rs zero (r / 8192) - hint rs zero (r / 8192)) := Nat.mul_le_mul_right _ (by omega)
      omega

omit [Profile] in
theorem spent_step (h : rs.Inv) {r s : Nat} (hr : r < C rs.data (!zero) rs.len) (hs : IsSuper rs zero r s) :
    spent rs zero r + (s - hint rs zero (r / 8192)) ≤
      if r + 1 < C rs.data (!zero) rs.len then spent rs zero (r + 1) else 8192 * (rs.supers.length - 1) := by
  have := spent_step_upper h hr hs
  have := hint_le h hr hs
  omega

/-- bound for the number of searches before this state -/
def misses (rs : RsVec) (zero : Bool) (it : SelIter) : Nat :=
  it.lastSuper + (it.nextRank - C rs.data (!zero) (8192 * (rs.supers.length - 1)))

theorem callsC_cost (h : rs.Inv) : ∀ n (it : SelIter), it.Inv rs zero → ∀ x, it.nextRankBack = some x →
    x + 1 = C rs.data (!zero) rs.len → it.nextRank + n = x + 1 →
    (callsC rs zero n it).result =
        .ok (((positions (!zero) rs.intoBitVec.bits).drop it.nextRank).map some) ∧
      (0 < n → (callsC rs zero n it).steps + spent rs zero it.nextRank + Nat.log2 rs.supers.length * misses rs zero it ≤
        6 * n + 8192 * (rs.supers.length - 1) + Nat.log2 rs.supers.length * (rs.supers.length - 1 + 8192))
  | 0, it, hi, x, hx, hxc, hn => by
    refine ⟨?_, fun h0 => by omega⟩
    have : (positions (!zero) rs.intoBitVec.bits).length = C rs.data (!zero) rs.len := length_positions_eq zero
    rw [List.drop_of_length_le (by omega)]; rfl
  | n + 1, it, hi, x, hx, hxc, hn => by
    obtain ⟨it', p, c1, c2, c3, c4, c5, c6, c7, c8, -⟩ := nextC_cost h hi hx (by omega)
    obtain ⟨i1, i2⟩ := callsC_cost h n it' c5 x c4 hxc (by omega)
    have hk : it.nextRank < C rs.data (!zero) rs.len := by omega
    have hp := positions_of_pos hk c2
    have hwf := h.wf
    have hsl := h.slen
    unfold callsC
    rw [bind_of c1, bind_of i1]
    refine ⟨?_, fun _ => ?_⟩
    · show Except.ok _ = _
      have hlen := List.getElem?_eq_some_iff.mp hp
      rw [List.drop_eq_getElem_cons hlen.1, hlen.2, List.map_cons, c3]
    · have hsp := spent_step h hk c6
      have hst : (nextC rs zero it).steps + Nat.log2 rs.supers.length * misses rs zero it ≤
          6 + (it'.lastSuper - hint rs zero (it.nextRank / 8192)) + Nat.log2 rs.supers.length * misses rs zero it' := by
        by_cases hm : Miss rs zero it
        · have hle : misses rs zero it + 1 ≤ misses rs zero it' := by
            unfold misses
            rw [c3]
            have hlsc := (hi x hx).lsc
            have hlb := (hi x hx).lb
            have hls := (hi x hx).ls
            have hbl := h.blen
            by_cases hl : it.lastSuper + 1 < rs.supers.length
            · have := hm hl
              have : it.lastSuper < it'.lastSuper := by
                refine Decidable.byContradiction fun hc => ?_
                have := c6.2.2 (by omega)
                have := C_mono rs.data (!zero) (i := 8192 * (it'.lastSuper + 1)) (j := 8192 * (it.lastSuper + 1)) (by omega)
                omega
              omega
            · have e1 : it.lastSuper = rs.supers.length - 1 := by omega
              rw [e1] at hlsc
              have : it'.lastSuper = rs.supers.length - 1 := by
                have := c6.1
                refine Decidable.byContradiction fun hc => ?_
                have := c6.2.2 (by omega)
                have := C_mono rs.data (!zero) (i := 8192 * (it'.lastSuper + 1)) (j := 8192 * (rs.supers.length - 1)) (by omega)
                omega
              omega
          have := Nat.mul_le_mul_left (Nat.log2 rs.supers.length) hle
          have := c8 hm
          rw [Nat.mul_succ] at *
          omega
        · obtain ⟨g1, g2⟩ := c7 hm
          have hle : misses rs zero it ≤ misses rs zero it' := by unfold misses; omega
          have := Nat.mul_le_mul_left (Nat.log2 rs.supers.length) hle
          omega
      simp only
      by_cases h0 : 0 < n
      · have := i2 h0
        rw [if_pos (by omega), ← c3] at hsp
        show _ + (_ + 0) + _ + _ ≤ _
        omega
      · have hn0 : n = 0 := by omega
        subst hn0
        rw [if_neg (by omega)] at hsp
        have hle : misses rs zero it' ≤ rs.supers.length - 1 + 8192 := by
          unfold misses
          have g1 := c6.1
          have g2 := C_sub_le rs.data (!zero) (i := 8192 * (rs.supers.length - 1)) (j := rs.len) (by omega)
          omega
        have := Nat.mul_le_mul_left (Nat.log2 rs.supers.length) hle
        show _ + (0 + 0) + _ + _ ≤ _
        omega

/-- If all bits that remain are in the last super block (and in the first select block), every call passes all the super
blocks. -/
theorem callsC_slow (h : rs.Inv) {m : Nat} (hz : zero = false ∨ C rs.data (!zero) rs.len < 8192)
    (hm : rs.supers.length = m + 1) (hlen : C rs.data (!zero) rs.len ≤ 8192) :
    ∀ n (it : SelIter), it.Inv rs zero → ∀ x, it.nextRankBack = some x → it.nextRank + n ≤ x + 1 →
    C rs.data (!zero) (8192 * m) ≤ it.nextRank →
    ∃ l, (callsC rs zero n it).result = .ok l ∧ n * m ≤ (callsC rs zero n it).steps
  | 0, it, _, _, _, _, _ => ⟨[], rfl, by omega⟩
  | n + 1, it, hi, x, hx, hn, hc => by
    obtain ⟨it', p, c1, c2, c3, c4, c5, c6, -, -, c9⟩ := nextC_cost h hi hx (by omega)
    obtain ⟨l, i1, i2⟩ := callsC_slow h hz hm hlen n it' c5 x c4 (by omega) (by omega)
    have hk := (hi x hx).xlt
    have h0 : it.nextRank / 8192 = 0 := by omega
    have hhint : hint rs zero 0 = 0 := by
      unfold hint
      cases hs : rs.selects[0]? with
      | none => rfl
      | some e => exact (h.sel zero).first e hs
    have hlast : it'.lastSuper = m := by
      have := c6.1
      refine Decidable.byContradiction fun hc => ?_
      have := c6.2.2 (by omega)
      have := C_mono rs.data (!zero) (i := 8192 * (it'.lastSuper + 1)) (j := 8192 * m) (by omega)
      omega
    have hst := c9 (fun hl => by
      have := C_mono rs.data (!zero) (i := 8192 * (it.lastSuper + 1)) (j := 8192 * m) (by omega)
      omega) (by
        rw [h0]
        rcases hz with hz | hz
        · exact Or.inl hz
        · exact Or.inr (by omega))
    rw [h0, hhint, hlast] at hst
    unfold callsC
    rw [bind_of c1, bind_of i1]
    refine ⟨_, rfl, ?_⟩
    show (n + 1) * m ≤ _ + (_ + 0)
    rw [Nat.add_mul, Nat.one_mul]
    omega

/-- the last of `n + 1` calls -/
theorem callsC_snoc (h : rs.Inv) : ∀ n (it : SelIter), it.Inv rs zero → ∀ x, it.nextRankBack = some x →
    it.nextRank + n ≤ x →
    ∃ it', it'.Inv rs zero ∧ it'.nextRankBack = some x ∧ it'.nextRank = it.nextRank + n ∧
      ((0 < n ∧ IsSuper rs zero (it.nextRank + n - 1) it'.lastSuper) ∨ (n = 0 ∧ it' = it)) ∧
      (callsC rs zero (n + 1) it).steps = (callsC rs zero n it).steps + (nextC rs zero it').steps
  | 0, it, hi, x, hx, hn => by
    obtain ⟨it', p, c1, -⟩ := nextC_cost h hi hx (by omega)
    refine ⟨it, hi, hx, rfl, Or.inr ⟨rfl, rfl⟩, ?_⟩
    unfold callsC
    rw [bind_of c1]
    show _ + 0 = 0 + _
    omega
  | n + 1, it, hi, x, hx, hn => by
    obtain ⟨it1, p, c1, c2, c3, c4, c5, c6, -⟩ := nextC_cost h hi hx (by omega)
    obtain ⟨it', i1, i2, i3, i4, i5⟩ := callsC_snoc h n it1 c5 x c4 (by omega)
    have hs : ∀ k, k ≤ n + 1 → (callsC rs zero (k + 1) it).steps =
        (nextC rs zero it).steps + (callsC rs zero k it1).steps := by
      intro k hk
      have hr : ∀ k (it : SelIter), it.Inv rs zero → it.nextRankBack = some x → it.nextRank + k ≤ x + 1 →
          ∃ l, (callsC rs zero k it).result = .ok l := by
        intro k
        induction k with
        | zero => intro it _ _ _; exact ⟨[], rfl⟩
        | succ k ih =>
          intro it hi hx hk
          obtain ⟨it1, p, c1, c2, c3, c4, c5, -⟩ := nextC_cost h hi hx (by omega)
          obtain ⟨l, hl⟩ := ih it1 c5 c4 (by omega)
          unfold callsC
          rw [bind_of c1, bind_of hl]
          exact ⟨_, rfl⟩
      obtain ⟨l, hl⟩ := hr k it1 c5 c4 (by omega)
      rw [callsC, bind_of c1, bind_of hl]
      show _ + (_ + 0) = _
      omega
    refine ⟨it', i1, i2, by omega, Or.inl ⟨by omega, ?_⟩, ?_⟩
    · rcases i4 with ⟨h0, h1⟩ | ⟨h0, h1⟩
      · rw [show it.nextRank + (n + 1) - 1 = it1.nextRank + n - 1 by omega]
        exact h1
      · rw [h0, h1]; exact c6
    · rw [hs (n + 1) (by omega), hs n (by omega), i5]; omega

end SelIter
end Vers
