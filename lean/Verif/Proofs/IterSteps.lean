import Verif.Model.IterSteps
import Verif.Proofs.EfSteps

/-! # The number of steps of iterations from both ends -/

set_option linter.unusedSimpArgs false

namespace Vers

variable [Profile]
open Counted Spec

namespace SelIter
variable {rs : RsVec} {zero : Bool}

theorem bwdLocateC_result (it : SelIter) (x : Nat) : (bwdLocateC rs zero it x).result = bwdLocate rs zero it x := by
  unfold bwdLocateC bwdLocate
  rw [result_bind]
  congr 1; funext e
  rw [result_bind]
  congr 1; funext z
  rw [result_ite, missSuperC_result]
  congr 1
  rw [result_bind]
  congr 1; funext r
  rw [result_bind]; rfl

theorem nextBackC_result (it : SelIter) : (nextBackC rs zero it).result = nextBack rs zero it := by
  unfold nextBackC nextBack
  cases it.nextRankBack with
  | none => rfl
  | some back =>
    simp only
    rw [result_ite, result_bind, bwdLocateC_result]
    congr 1
    congr 1; funext t
    rw [result_bind]; rfl

/-! ## potential -/

/-- the distances of the first `r` bits from their hints, at most -/
def paid (rs : RsVec) (zero : Bool) (r : Nat) : Nat :=
  if r < C rs.data (!zero) rs.len then spent rs zero r else 8192 * (rs.supers.length - 1)

omit [Profile] in
theorem paid_step (h : rs.Inv) {r s : Nat} (hr : r < C rs.data (!zero) rs.len) (hs : RsVec.IsSuper rs zero r s) :
    paid rs zero r + (upper rs zero (r / 8192) - hint rs zero (r / 8192)) ≤ paid rs zero (r + 1) := by
  have := spent_step_upper h hr hs
  unfold paid
  rw [if_pos hr]
  exact this

theorem paid_mono (h : rs.Inv) {a : Nat} : ∀ b, a ≤ b → paid rs zero a ≤ paid rs zero b
  | 0, hb => by rw [Nat.le_zero.mp hb]
  | b + 1, hb => by
    by_cases hab : a = b + 1
    · rw [hab]
    · have ih := paid_mono h (a := a) b (by omega)
      by_cases hr : b < C rs.data (!zero) rs.len
      · obtain ⟨s, -, s2⟩ := RsVec.selectSuper_eq h zero hr
        have := paid_step h hr s2
        omega
      · refine Nat.le_trans ih ?_
        unfold paid
        rw [if_neg hr, if_neg (by omega)]

/-- what remains to be paid for the bits between the two ends -/
def due (rs : RsVec) (zero : Bool) (it : SelIter) : Nat :=
  match it.nextRankBack with
  | none => 0
  | some x => paid rs zero (x + 1) - paid rs zero it.nextRank

omit [Profile] in
theorem due_some {it : SelIter} {x : Nat} (hb : it.nextRankBack = some x) :
    due rs zero it = paid rs zero (x + 1) - paid rs zero it.nextRank := by unfold due; rw [hb]

omit [Profile] in
theorem due_pred {it : SelIter} {x : Nat} (hb : it.nextRankBack = predOpt x) :
    due rs zero it ≤ paid rs zero x - paid rs zero it.nextRank := by
  unfold due
  rw [hb]
  unfold predOpt
  by_cases h0 : 0 < x
  · rw [if_pos h0]
    simp only
    rw [show x - 1 + 1 = x by omega]
  · rw [if_neg h0]; exact Nat.zero_le _

/-- the search from the hint -/
theorem missSuperC_le (h : rs.Inv) {r : Nat} (hr : r < C rs.data (!zero) rs.len) {e : Nat × Nat}
    (he : rs.selects[r / 8192]? = some e) :
    (missSuperC rs zero (prj zero e) r).steps ≤ 2 * (upper rs zero (r / 8192) - hint rs zero (r / 8192)) + 3 := by
  obtain ⟨s, -, s2⟩ := RsVec.selectSuper_eq h zero hr
  have h1 := RsVec.searchSuperC_upper h zero hr he s2
  obtain ⟨g1, -⟩ := RsVec.searchSuperC_steps h zero hr he s2
  unfold missSuperC
  rw [bind_of g1, tick_of (RsVec.superBefore_eq h zero s2.1), free_of (subR_of_le s2.2.1)]
  show _ + (1 + 0) ≤ _
  omega

omit [Profile] in
theorem steps_tick_bind_le {α β : Type} (y : R α) (f : α → Counted β) {n : Nat}
    (h : ∀ a, y = .ok a → (f a).steps ≤ n) : (tick y >>= f).steps ≤ n + 1 := by
  rcases y with e | a
  · show 1 ≤ _; omega
  · rw [tick_of rfl]
    have := h a rfl
    show 1 + _ ≤ _
    omega

omit [Profile] in
theorem steps_free_bind_le {α β : Type} (y : R α) (f : α → Counted β) {n : Nat}
    (h : ∀ a, y = .ok a → (f a).steps ≤ n) : (free y >>= f).steps ≤ n := by
  rcases y with e | a
  · show 0 ≤ _; omega
  · rw [free_of rfl]
    exact h a rfl

omit [Profile] in
theorem steps_bind_le {α β : Type} (y : Counted α) (f : α → Counted β) {m n : Nat} (hy : y.steps ≤ m)
    (h : ∀ a, y.result = .ok a → (f a).steps ≤ n) : (y >>= f).steps ≤ m + n := by
  rcases hr : y.result with e | a
  · show (match y.result with
      | .ok a => (⟨y.steps + (f a).steps, (f a).result⟩ : Counted β)
      | .error e => ⟨y.steps, .error e⟩).steps ≤ _
    rw [hr]; show y.steps ≤ _; omega
  · rw [bind_of hr]
    have := h a hr
    show y.steps + _ ≤ _
    omega

theorem fwdLocateC_le (h : rs.Inv) {it : SelIter} (hr : it.nextRank < C rs.data (!zero) rs.len) :
    (fwdLocateC rs zero it).steps ≤
      2 * (upper rs zero (it.nextRank / 8192) - hint rs zero (it.nextRank / 8192)) + 5 := by
  unfold fwdLocateC
  refine steps_tick_bind_le _ _ (n := _ + 4) fun e he => steps_tick_bind_le _ _ (n := _ + 3) fun b _ => ?_
  have he' : rs.selects[it.nextRank / 8192]? = some e := by
    unfold idx at he
    split at he
    · rename_i a ha; cases he; exact ha
    · cases he
  cases b with
  | true =>
    rw [if_pos rfl]
    refine Nat.le_trans (steps_tick_bind_le _ _ (n := 2) fun z _ => steps_free_bind_le _ _ fun r _ =>
      steps_tick_bind_le _ _ (n := 1) fun bh _ => Nat.le_refl _) (by omega)
  | false =>
    rw [if_neg (by decide)]
    exact missSuperC_le h hr he'

theorem bwdLocateC_le (h : rs.Inv) {it : SelIter} {x : Nat} (hr : x < C rs.data (!zero) rs.len) :
    (bwdLocateC rs zero it x).steps ≤ 2 * (upper rs zero (x / 8192) - hint rs zero (x / 8192)) + 5 := by
  unfold bwdLocateC
  refine steps_tick_bind_le _ _ (n := _ + 4) fun e he => steps_tick_bind_le _ _ (n := _ + 3) fun z _ => ?_
  have he' : rs.selects[x / 8192]? = some e := by
    unfold idx at he
    split at he
    · rename_i a ha; cases he; exact ha
    · cases he
  by_cases hz : z < x
  · rw [if_pos hz]
    refine Nat.le_trans (steps_free_bind_le _ _ fun r _ =>
      steps_tick_bind_le _ _ (n := 1) fun bh _ => Nat.le_refl _) (by omega)
  · rw [if_neg hz]
    exact missSuperC_le h hr he'

/-- `next`: at most 6 steps besides what it pays -/
theorem nextC_due (h : rs.Inv) {it : SelIter} (hi : it.Inv rs zero) :
    ∃ it' o, (nextC rs zero it).result = .ok (it', o) ∧ it'.Inv rs zero ∧
      (nextC rs zero it).steps + 2 * due rs zero it' ≤ 6 + 2 * due rs zero it := by
  by_cases hc : ∃ x, it.nextRankBack = some x ∧ it.nextRank ≤ x
  · obtain ⟨x, hb, hx⟩ := hc
    obtain ⟨it', p, n1, -, n3, n4, n5⟩ := next_some h hi hb hx
    refine ⟨it', some p, by rw [nextC_result, n1], n5, ?_⟩
    have hr : it.nextRank < C rs.data (!zero) rs.len := Nat.lt_of_le_of_lt hx (hi x hb).xlt
    have hst : (nextC rs zero it).steps ≤
        2 * (upper rs zero (it.nextRank / 8192) - hint rs zero (it.nextRank / 8192)) + 6 := by
      unfold nextC
      rw [hb]
      simp only
      by_cases hz : it.nextRank ≥ (if zero then rs.rank0 else rs.rank1) ∨ it.nextRank > x
      · rw [if_pos hz]; exact Nat.zero_le _
      · rw [if_neg hz]
        refine Nat.le_trans (steps_bind_le _ _ (fwdLocateC_le h hr) fun t _ =>
          steps_tick_bind_le _ _ (n := 0) fun q _ => Nat.le_refl 0) (by omega)
    obtain ⟨s, -, s2⟩ := RsVec.selectSuper_eq h zero hr
    have hp := paid_step h hr s2
    have hm := paid_mono (zero := zero) h (a := it.nextRank + 1) (x + 1) (by omega)
    rw [due_some hb, due_some n4, n3]
    omega
  · have hn : ∀ x, it.nextRankBack = some x → x < it.nextRank := fun x hx =>
      Nat.lt_of_not_le fun hle => hc ⟨x, hx, hle⟩
    refine ⟨it, none, by rw [nextC_result, next_none hn], hi, ?_⟩
    have hst : (nextC rs zero it).steps = 0 := by
      unfold nextC
      cases hb : it.nextRankBack with
      | none => rfl
      | some x =>
        simp only
        rw [if_pos (Or.inr (hn x hb))]; rfl
    omega

/-- `next_back`: at most 6 steps besides what it pays -/
theorem nextBackC_due (h : rs.Inv) {it : SelIter} (hi : it.Inv rs zero) :
    ∃ it' o, (nextBackC rs zero it).result = .ok (it', o) ∧ it'.Inv rs zero ∧
      (nextBackC rs zero it).steps + 2 * due rs zero it' ≤ 6 + 2 * due rs zero it := by
  by_cases hc : ∃ x, it.nextRankBack = some x ∧ it.nextRank ≤ x
  · obtain ⟨x, hb, hx⟩ := hc
    obtain ⟨it', p, n1, -, n3, n4, n5⟩ := nextBack_some h hi hb hx
    refine ⟨it', some p, by rw [nextBackC_result, n1], n5, ?_⟩
    have hr : x < C rs.data (!zero) rs.len := (hi x hb).xlt
    have hst : (nextBackC rs zero it).steps ≤ 2 * (upper rs zero (x / 8192) - hint rs zero (x / 8192)) + 6 := by
      unfold nextBackC
      rw [hb]
      simp only
      rw [if_neg (by omega)]
      refine Nat.le_trans (steps_bind_le _ _ (bwdLocateC_le h hr) fun t _ =>
          steps_tick_bind_le _ _ (n := 0) fun q _ => Nat.le_refl 0) (by omega)
    obtain ⟨s, -, s2⟩ := RsVec.selectSuper_eq h zero hr
    have hp := paid_step h hr s2
    have hm := paid_mono (zero := zero) h (a := it.nextRank) x hx
    have hd := due_pred (rs := rs) (zero := zero) n4
    rw [n3] at hd
    rw [due_some hb]
    omega
  · have hn : ∀ x, it.nextRankBack = some x → x < it.nextRank := fun x hx =>
      Nat.lt_of_not_le fun hle => hc ⟨x, hx, hle⟩
    refine ⟨it, none, by rw [nextBackC_result, nextBack_none hn], hi, ?_⟩
    have hst : (nextBackC rs zero it).steps = 0 := by
      unfold nextBackC
      cases hb : it.nextRankBack with
      | none => rfl
      | some x =>
        simp only
        rw [if_pos (hn x hb)]; rfl
    omega

/-- a loop -/
theorem bothC_steps (h : rs.Inv) : ∀ (ops : List Bool) (it : SelIter), it.Inv rs zero →
    (bothC rs zero ops it).steps ≤ 6 * ops.length + 2 * due rs zero it
  | [], _, _ => Nat.zero_le _
  | b :: ops, it, hi => by
    unfold bothC
    have key : ∃ it' o, (callC rs zero it b).result = .ok (it', o) ∧ it'.Inv rs zero ∧
        (callC rs zero it b).steps + 2 * due rs zero it' ≤ 6 + 2 * due rs zero it := by
      cases b with
      | true => exact nextC_due h hi
      | false => exact nextBackC_due h hi
    obtain ⟨it', o, k1, k2, k3⟩ := key
    have ih := bothC_steps h ops it' k2
    rw [bind_of k1]
    show _ + (bothC rs zero ops it' >>= fun l => pure (o :: l)).steps ≤ _
    rw [steps_map]
    rw [List.length_cons]
    omega

theorem due_le (h : rs.Inv) {it : SelIter} (hi : it.Inv rs zero) : due rs zero it ≤ rs.len := by
  cases hb : it.nextRankBack with
  | none => unfold due; rw [hb]; exact Nat.zero_le _
  | some x =>
    have hm := paid_mono (zero := zero) h (a := x + 1) (C rs.data (!zero) rs.len) (hi x hb).xlt
    have : paid rs zero (C rs.data (!zero) rs.len) = 8192 * (rs.supers.length - 1) := by
      unfold paid; rw [if_neg (Nat.lt_irrefl _)]
    have hwf := h.wf
    have hsl := h.slen
    rw [due_some hb]
    omega

end SelIter

namespace EfIter
variable {ef : EF}

theorem nextBackC_within (it : EfIter) :
    Within (it.nextBackC ef) (it.nextBack ef) ((it.up.nextBackC ef.upper false).steps + 1) := by
  unfold nextBackC nextBack
  refine Within.bind (a := (it.up.nextBackC ef.upper false).steps) (b := 1)
    ⟨SelIter.nextBackC_result it.up, Nat.le_refl _⟩ (Nat.le_refl _) fun p => ?_
  rcases p.2 with _ | u
  · exact within_pure _ _
  · exact free_bind fun b => tick_bind (n := 0) fun c => free_bind fun x => within_pure _ _

/-- a call: the result, and the steps besides what is paid -/
theorem callC_spec {data : List Word} {ps : List Nat} (h : ef.Holds data ps) {it : EfIter} {r : List Word}
    (hr : Rel ef data ps it r) (b : Bool) :
    ∃ it', (it.callC ef b).result = .ok (it', if b then r.head? else r.getLast?) ∧
      Rel ef data ps it' (if b then r.tail else r.dropLast) ∧
      (it.callC ef b).steps + 2 * SelIter.due ef.upper false it'.up ≤ 7 + 2 * SelIter.due ef.upper false it.up := by
  cases b with
  | true =>
    obtain ⟨it', n1, n2⟩ := next_rel h hr
    obtain ⟨u, o, u1, -, u3⟩ := SelIter.nextC_due h.up hr.up.1
    have hup : it'.up = u := by
      rw [SelIter.nextC_result] at u1
      unfold next at n1
      rw [u1, ok_bind] at n1
      cases o with
      | none => exact (congrArg (fun t => t.1.up) (Except.ok.inj n1)).symm
      | some q =>
        obtain ⟨c, -, n1⟩ := bind_eq_ok.mp n1
        obtain ⟨x, -, n1⟩ := bind_eq_ok.mp n1
        exact (congrArg (fun t => t.1.up) (Except.ok.inj n1)).symm
    have hw := nextC_within (ef := ef) it
    refine ⟨it', ?_, n2, ?_⟩
    · show (it.nextC ef).result = _
      rw [hw.same]; exact n1
    · have := hw.le
      show (it.nextC ef).steps + _ ≤ _
      rw [hup]
      omega
  | false =>
    obtain ⟨it', n1, n2⟩ := nextBack_rel h hr
    obtain ⟨u, o, u1, -, u3⟩ := SelIter.nextBackC_due h.up hr.up.1
    have hup : it'.up = u := by
      rw [SelIter.nextBackC_result] at u1
      unfold nextBack at n1
      rw [u1, ok_bind] at n1
      cases o with
      | none => exact (congrArg (fun t => t.1.up) (Except.ok.inj n1)).symm
      | some q =>
        obtain ⟨b, -, n1⟩ := bind_eq_ok.mp n1
        obtain ⟨c, -, n1⟩ := bind_eq_ok.mp n1
        obtain ⟨x, -, n1⟩ := bind_eq_ok.mp n1
        exact (congrArg (fun t => t.1.up) (Except.ok.inj n1)).symm
    have hw := nextBackC_within (ef := ef) it
    refine ⟨it', ?_, n2, ?_⟩
    · show (it.nextBackC ef).result = _
      rw [hw.same]; exact n1
    · have := hw.le
      show (it.nextBackC ef).steps + _ ≤ _
      rw [hup]
      omega

end EfIter

end Vers
