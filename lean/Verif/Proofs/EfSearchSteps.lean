import Verif.Model.EfSearchSteps
import Verif.Proofs.EfSteps
import Verif.SpecAverage

/-! # The number of steps of the search queries of Elias-Fano vectors -/

set_option linter.unusedSectionVars false
set_option linter.unusedSimpArgs false

namespace Vers

variable [Profile]
open Counted Spec

namespace Counted

theorem steps_bind_le {α β : Type} {x : Counted α} {f : α → Counted β} {a b n : Nat} (hx : x.steps ≤ a)
    (hn : a + b ≤ n) (hf : ∀ v, x.result = .ok v → (f v).steps ≤ b) : (x >>= f).steps ≤ n := by
  rcases hr : x.result with e | v
  · show (match x.result with
      | .ok a => (⟨x.steps + (f a).steps, (f a).result⟩ : Counted β)
      | .error e => ⟨x.steps, .error e⟩).steps ≤ _
    rw [hr]; show x.steps ≤ n; omega
  · rw [bind_of hr]
    have := hf v hr
    show x.steps + (f v).steps ≤ n
    omega

theorem steps_free_le {α β : Type} {y : R α} {f : α → Counted β} {n : Nat} (hf : ∀ v, y = .ok v → (f v).steps ≤ n) :
    (free y >>= f).steps ≤ n :=
  steps_bind_le (a := 0) (b := n) (Nat.le_refl _) (by omega) hf

theorem steps_tick_le {α β : Type} {y : R α} {f : α → Counted β} {b n : Nat} (hn : b + 1 ≤ n)
    (hf : ∀ v, y = .ok v → (f v).steps ≤ b) : (tick y >>= f).steps ≤ n :=
  steps_bind_le (a := 1) (b := b) (Nat.le_refl _) (by omega) hf

theorem steps_ite_le {α : Type} {c : Prop} [Decidable c] {x y : Counted α} {n : Nat} (hx : c → x.steps ≤ n)
    (hy : ¬ c → y.steps ≤ n) : (if c then x else y).steps ≤ n := by
  by_cases h : c
  · rw [if_pos h]; exact hx h
  · rw [if_neg h]; exact hy h

end Counted

namespace EF
variable {ef : EF}

/-! ## same results -/

theorem getUncheckedC_result (i : Nat) : (ef.getUncheckedC i).result = ef.getUnchecked i := by
  unfold getUncheckedC getUnchecked
  rw [result_bind, RsVec.selectC_result]
  congr 1; funext s
  rw [result_bind]
  congr 1; funext u
  rw [result_bind]
  congr 1; funext u
  rw [result_bind]
  congr 1

theorem binWalkC_result (up : Bool) (lq : Word) : ∀ fuel c,
    (binWalkC ef up lq fuel c).result = binWalk ef up lq fuel c
  | 0, _ => rfl
  | fuel + 1, c => by
    unfold binWalkC binWalk
    rw [result_bind]
    congr 1; funext p
    rw [result_bind]
    congr 1; funext x
    rw [result_ite, binWalkC_result up lq fuel p]
    rfl

theorem binHitC_result (index up : Bool) (lq m : Word) (c : Nat) (x : Word) :
    (binHitC ef index up lq m c x).result = binHit ef index up lq m c x := by
  unfold binHitC binHit
  rw [result_ite, result_bind, binWalkC_result]
  rfl

theorem binLoopC_result (index up : Bool) (lq m : Word) : ∀ fuel lb ub lc,
    (binLoopC ef index up lq m fuel lb ub lc).result = binLoop ef index up lq m fuel lb ub lc
  | 0, _, _, _ => rfl
  | fuel + 1, lb, ub, lc => by
    unfold binLoopC binLoop
    rw [result_bind]
    congr 1; funext u
    rw [result_ite]
    congr 1
    rw [result_bind]
    congr 1; funext d
    rw [result_bind]
    congr 1; funext x
    rw [result_ite, binLoopC_result]
    congr 1
    rw [result_ite, binLoopC_result, result_bind, binHitC_result]
    rfl

theorem binFinishC_result (index up : Bool) (lq m : Word) (be fb : Nat) (lc : Word) :
    (binFinishC ef index up lq m be fb lc).result = binFinish ef index up lq m be fb lc := by
  unfold binFinishC binFinish
  rw [result_ite]
  congr 1
  rw [result_bind]
  congr 1; funext p
  rw [result_bind]
  congr 1; funext x
  rw [result_ite, result_ite]
  rfl

theorem blockEndC_result (up : Bool) (u : Nat) : (blockEndC ef up u).result = blockEnd ef up u := by
  unfold blockEndC blockEnd
  rw [result_ite, result_bind, result_bind, RsVec.selectC_result, RsVec.selectC_result]
  congr 1
  congr 1; funext s
  rw [result_bind]
  rfl

theorem binSearchC_result (index up : Bool) (sl u : Nat) (lq m : Word) (c : Nat) (lc : Word) :
    (binSearchC ef index up sl u lq m c lc).result = binSearch ef index up sl u lq m c lc := by
  unfold binSearchC binSearch
  rw [result_bind, blockEndC_result]
  congr 1; funext be
  rw [result_bind]
  congr 1; funext a
  rw [result_bind, binLoopC_result]
  congr 1; funext r
  cases r with
  | error x => rfl
  | ok t => exact binFinishC_result _ _ _ _ _ _ _

theorem linearC_result (index up : Bool) (su sl u : Nat) (lq m : Word) : ∀ fuel c lc,
    (linearC ef index up su sl u lq m fuel c lc).result =
      linear ef index up su sl u lq m (ef.upper.supers.length + 1) (ef.len + 1) fuel c lc
  | 0, c, lc => binSearchC_result _ _ _ _ _ _ _ _
  | fuel + 1, c, lc => by
    unfold linearC linear
    rw [result_bind]
    congr 1; funext p
    rw [result_bind]
    congr 1; funext b
    rw [result_ite, result_ite]
    congr 1
    rw [result_bind]
    congr 1; funext q
    rw [result_bind]
    congr 1; funext x
    rw [result_ite, result_ite, result_ite, result_ite, linearC_result]
    rfl

theorem searchOutsideC_result (index up : Bool) (sl : Nat) :
    (searchOutsideC ef index up sl).result = searchOutside ef index up sl := by
  unfold searchOutsideC searchOutside
  rw [result_ite]
  congr 1
  rw [result_bind]
  congr 1; funext p
  exact getUncheckedC_result p

theorem searchC_result (index up : Bool) (su sl : Nat) (q : Word) (u : Nat) (lq m : Word) :
    (searchC ef index up su sl q u lq m).result = search ef index up su sl q u lq m := by
  unfold searchC search
  rw [result_bind]
  congr 1; funext p
  rw [result_bind]
  congr 1; funext b
  rw [result_ite, searchOutsideC_result]
  congr 1
  rw [result_bind]
  congr 1; funext lc
  rw [result_ite, linearC_result, searchOutsideC_result]

theorem predecessorC_result (n : Word) : (ef.predecessorC n).result = ef.predecessor n := by
  unfold predecessorC predecessor
  rw [result_ite]
  congr 1
  rw [result_bind]
  congr 1
  unfold predecessorUncheckedC predecessorUnchecked
  rw [result_ite]
  congr 1
  · rw [result_bind]
    congr 1; funext i
    exact getUncheckedC_result i
  · rw [result_bind]
    congr 1; funext n
    simp only
    rw [result_bind, RsVec.selectC_result]
    congr 1; funext su
    rw [result_bind]
    congr 1; funext sl
    exact searchC_result _ _ _ _ _ _ _ _

theorem successorC_result (n : Word) : (ef.successorC n).result = ef.successor n := by
  unfold successorC successor
  rw [result_ite]
  congr 1
  rw [result_bind]
  congr 1
  unfold successorUncheckedC successorUnchecked
  rw [result_ite, getUncheckedC_result]
  congr 1
  rw [result_bind]
  congr 1; funext n
  simp only
  rw [result_bind]
  congr 1; funext k
  rw [result_bind, RsVec.selectC_result]
  congr 1; funext su
  rw [result_bind]
  congr 1; funext sl
  rw [result_bind]
  congr 1; funext sl
  exact searchC_result _ _ _ _ _ _ _ _

theorem rankC_result (n : Word) : (ef.rankC n).result = ef.rank n := by
  unfold rankC rank
  rw [result_ite, result_ite]
  congr 1
  congr 1
  rw [result_bind]
  congr 1; funext n
  simp only
  rw [result_bind, RsVec.selectC_result]
  congr 1; funext su
  rw [result_bind]
  congr 1; funext sl
  exact searchC_result _ _ _ _ _ _ _ _

/-! ## the steps of one query -/

/-- the steps of the query for the zero (one) number `k` of the upper half -/
def s0 (ef : EF) (k : Nat) : Nat := (ef.upper.selectC true k).steps
def s1 (ef : EF) (k : Nat) : Nat := (ef.upper.selectC false k).steps

theorem getUncheckedC_steps (i : Nat) : (ef.getUncheckedC i).steps ≤ s1 ef i + 1 := by
  unfold getUncheckedC
  refine steps_bind_le (Nat.le_refl _) (Nat.le_refl _) fun s _ => ?_
  refine steps_free_le fun u _ => steps_free_le fun u _ => steps_tick_le (Nat.le_refl 1) fun l _ => Nat.le_refl _

/-- The loop stops at the latest at an element with another lower half. -/
theorem binWalkC_steps {lq x : Word} {g : Nat} (hx : ef.lowAt g = .ok x) (hne : x ≠ lq) : ∀ fuel c, g < c →
    (binWalkC ef true lq fuel c).steps ≤ c - g
  | 0, _, _ => Nat.zero_le _
  | fuel + 1, c, hc => by
    unfold binWalkC
    refine steps_free_le fun p hp => ?_
    rw [Bool.not_true, dirIdx_down (by omega)] at hp
    cases hp
    refine steps_tick_le (b := c - g - 1) (by omega) fun y hy => steps_ite_le (fun he => ?_) (fun _ => Nat.zero_le _)
    have : g ≠ c - 1 := by
      intro h; subst h; rw [hx] at hy; cases hy; exact hne he
    have := binWalkC_steps hx hne fuel (c - 1) (by omega)
    omega

theorem binLoopC_steps {index up : Bool} {lq m : Word} (hi : index = true → up = true) : ∀ fuel lb ub lc,
    (index = true → ∃ x, ef.lowAt lb = .ok x ∧ x ≠ lq) → 1 ≤ ub →
    (binLoopC ef index up lq m fuel lb ub lc).steps ≤ ub - lb
  | 0, _, _, _, _, _ => Nat.zero_le _
  | fuel + 1, lb, ub, lc, hlb, hub => by
    unfold binLoopC
    refine steps_free_le fun u hu => steps_ite_le (fun hlt => ?_) (fun _ => Nat.zero_le _)
    refine steps_free_le fun d hd => ?_
    rw [subR_of_le hub] at hu
    cases hu
    rw [subR_of_le (by omega)] at hd
    cases hd
    refine steps_tick_le (b := ub - lb - 1) (by omega) fun x hx => steps_ite_le (fun hgt => ?_) (fun hgt => ?_)
    · exact Nat.le_trans (binLoopC_steps hi fuel _ _ _ hlb (by omega)) (by omega)
    · refine steps_ite_le (fun heq => ?_) (fun hne => ?_)
      · refine steps_bind_le (a := ub - lb - 1) (b := 0) ?_ (by omega) fun _ _ => Nat.le_refl _
        unfold binHitC
        refine steps_ite_le (fun hidx => ?_) (fun _ => Nat.zero_le _)
        obtain ⟨y, y1, y2⟩ := hlb hidx
        rw [hi hidx]
        refine steps_bind_le (binWalkC_steps y1 y2 _ _ (by omega)) (b := 0) (by omega) fun _ _ => Nat.le_refl _
      · exact Nat.le_trans (binLoopC_steps hi fuel _ _ _ (fun _ => ⟨x, hx, hne⟩) hub) (by omega)

theorem binFinishC_steps (index up : Bool) (lq m : Word) (be fb : Nat) (lc : Word) :
    (binFinishC ef index up lq m be fb lc).steps ≤ 1 := by
  unfold binFinishC
  refine steps_ite_le (fun _ => ?_) (fun _ => Nat.zero_le _)
  refine steps_free_le fun p _ => steps_tick_le (b := 0) (by omega) fun x _ => steps_ite_le
    (fun _ => steps_ite_le (fun _ => Nat.le_refl _) fun _ => Nat.le_refl _) (fun _ => Nat.le_refl _)

variable {n : Nat} {D : Nat → Nat} {u s e : Nat}

theorem binSearchC_steps (h : ef.Inv n D) (B : Block ef n D u s e) {index up : Bool} {lq m : Word}
    (hi : index = true → up = true) {c : Nat} {lc : Word} (hc : 1 ≤ c) (hce : c + 1 ≤ e ∨ up = true ∧ 2 ≤ e)
    (hx : index = true → ∃ x, ef.lowAt (s + (c - 1)) = .ok x ∧ x ≠ lq) :
    (binSearchC ef index up (if up then s else e - 1) u lq m c lc).steps ≤ s0 ef u + s0 ef (u + 1) + (e - s) + 1 := by
  unfold binSearchC
  cases up with
  | true =>
    have hb : (blockEndC ef true u).steps ≤ s0 ef (u + 1) := by
      unfold blockEndC
      rw [if_pos rfl]
      exact steps_bind_le (Nat.le_refl _) (b := 0) (Nat.le_refl _) fun _ _ => steps_free_le fun _ _ => Nat.le_refl _
    refine steps_bind_le hb (b := e - s + 1) (by omega) fun be hbe => ?_
    rw [blockEndC_result] at hbe
    unfold blockEnd at hbe
    rw [if_pos rfl, B.sel_close h, ok_bind, subR_of_le (by omega), ok_bind, subR_of_le (by omega)] at hbe
    have hbe' : be = e - 1 := by cases hbe; omega
    simp only [if_true, dirIdx_up]
    refine steps_free_le fun a ha => ?_
    cases ha
    refine steps_bind_le (binLoopC_steps hi _ _ _ _ hx (by omega)) (b := 1) (by omega) fun r _ => ?_
    cases r with
    | error x => exact Nat.zero_le _
    | ok t => exact binFinishC_steps _ _ _ _ _ _ _
  | false =>
    have hidx : index = false := by
      cases index with
      | false => rfl
      | true => exact absurd (hi rfl) (by decide)
    have hce : c + 1 ≤ e := by
      rcases hce with hce | ⟨hce, -⟩
      · exact hce
      · cases hce
    have hb : (blockEndC ef false u).steps ≤ s0 ef u := by
      unfold blockEndC
      rw [if_neg (by decide)]
      exact steps_bind_le (Nat.le_refl _) (b := 0) (Nat.le_refl _) fun _ _ => Nat.le_refl _
    refine steps_bind_le hb (b := e - s + 1) (by omega) fun be hbe => ?_
    rw [blockEndC_result] at hbe
    unfold blockEnd at hbe
    rw [if_neg (by decide), B.sel_open h, ok_bind, subR_of_le (by omega)] at hbe
    have hbe' : be = s := by cases hbe; omega
    simp only [Bool.false_eq_true, if_false]
    rw [dirIdx_down (by omega)]
    refine steps_free_le fun a ha => ?_
    cases ha
    refine steps_bind_le (binLoopC_steps hi _ _ _ _ (fun h' => by rw [hidx] at h'; cases h') (by omega)) (b := 1) (by omega) fun r _ => ?_
    cases r with
    | error x => exact Nat.zero_le _
    | ok t => exact binFinishC_steps _ _ _ _ _ _ _

/-- a set bit belongs to the block -/
theorem Block.in_block (h : ef.Inv n D) (B : Block ef n D u s e) {up : Bool} {c p : Nat} (hc : s + c ≤ e) {b : Word}
    (hp : dirIdx up (if up then u + s else u + 1 + e) (c + 1) = .ok p) (hb : ef.upper.getUnchecked p = .ok b)
    (hpos : b > 0#64) : s + c < e := by
  cases up with
  | true =>
    simp only [if_true, dirIdx_up] at hp
    cases hp
    rw [show u + s + (c + 1) = u + (s + c) + 1 by omega, B.bit h (by omega) hc] at hb
    cases hb
    rw [b2w_pos, decide_eq_true_eq] at hpos
    exact hpos
  | false =>
    simp only [Bool.false_eq_true, if_false] at hp
    rw [dirIdx_down (by omega)] at hp
    cases hp
    refine Decidable.byContradiction fun hn => ?_
    rw [show u + 1 + e - (c + 1) = u + s by omega, B.bit_open h] at hb
    cases hb
    rw [b2w_pos] at hpos
    cases hpos

theorem linearC_steps (h : ef.Inv n D) (B : Block ef n D u s e) {index up : Bool} {lq m : Word}
    (hi : index = true → up = true) : ∀ fuel c lc, (fuel = 0 → 2 ≤ c) →
    (2 ≤ c → index = true → ∃ x, ef.lowAt (s + (c - 1)) = .ok x ∧ x ≠ lq) →
    (2 ≤ c → up = false → c + 1 ≤ e) → 1 ≤ c → s + c ≤ e →
    (linearC ef index up (if up then u + s else u + 1 + e) (if up then s else e - 1) u lq m fuel c lc).steps ≤
      2 * fuel + (s0 ef u + s0 ef (u + 1) + (e - s) + 1)
  | 0, c, lc, hc, hx, hd, _, hce => by
    rw [Nat.mul_zero, Nat.zero_add]
    have h2 := hc rfl
    refine binSearchC_steps h B hi (by omega) ?_ (hx h2)
    cases up with
    | true => exact Or.inr ⟨rfl, by omega⟩
    | false => exact Or.inl (hd h2 rfl)
  | fuel + 1, c, lc, hc, hx, hd, h1, hce => by
    unfold linearC
    refine steps_free_le fun p hp => steps_tick_le (b := 2 * fuel + 1 + (s0 ef u + s0 ef (u + 1) + (e - s) + 1)) (by omega) fun b hb => ?_
    refine steps_ite_le (fun hpos => ?_) (fun _ => steps_ite_le (fun _ => Nat.zero_le _) fun _ => Nat.zero_le _)
    have hlt := B.in_block h hce hp hb hpos
    refine steps_free_le fun q hq => steps_tick_le (b := 2 * fuel + (s0 ef u + s0 ef (u + 1) + (e - s) + 1)) (by omega) fun x hx' => ?_
    refine steps_ite_le (fun _ => steps_ite_le (fun _ => Nat.zero_le _) fun _ => Nat.zero_le _) (fun hdir => ?_)
    refine steps_ite_le (fun _ => steps_ite_le (fun _ => Nat.zero_le _) fun _ => Nat.zero_le _) (fun hne => ?_)
    refine linearC_steps h B hi fuel (c + 1) x (by omega) (fun _ hidx => ⟨x, ?_, hne⟩) (fun _ hup => ?_) (by omega) (by omega)
    · rw [hi hidx] at hq
      simp only [if_true, dirIdx_up] at hq
      cases hq
      rw [Nat.add_sub_cancel]
      exact hx'
    · subst hup
      simp only [Bool.false_eq_true, if_false] at hq
      rw [dirIdx_down (by omega)] at hq
      cases hq
      refine Decidable.byContradiction fun hn => ?_
      rw [show e - 1 - c = 0 by omega, h.low 0 h.pos, h.d0, Nat.zero_mod] at hx'
      cases hx'
      apply hdir
      refine Or.inr ⟨rfl, ?_⟩
      rw [BitVec.lt_def]
      rw [eq_iff_toNat] at hne
      have : (BitVec.ofNat 64 0).toNat = 0 := rfl
      omega

theorem Inv.s1_beyond (h : ef.Inv n D) {k : Nat} (hk : n ≤ k) : s1 ef k = 0 := by
  unfold s1 RsVec.selectC
  rw [if_pos]
  · rfl
  · rw [RsVec.rankTotal_eq h.up, Bool.not_false, h.count_upper]; exact hk

/-- The search in a block: the two select queries for its ends, its elements, and possibly the element before or
behind it. -/
theorem searchC_steps (h : ef.Inv n D) (B : Block ef n D u s e) {index up : Bool} {q lq m : Word}
    (hi : index = true → up = true) (he : 1 ≤ e) :
    (searchC ef index up (if up then u + s else u + 1 + e) (if up then s else e - 1) q u lq m).steps ≤
      9 + s0 ef u + s0 ef (u + 1) + (e - s) +
        (if index then 0 else if up then (if s = 0 then 1 else s1 ef (s - 1) + 1) else s1 ef e + 1) := by
  have hout : (searchOutsideC ef index up (if up then s else e - 1)).steps ≤
      (if index then 0 else if up then (if s = 0 then 1 else s1 ef (s - 1) + 1) else s1 ef e + 1) := by
    unfold searchOutsideC
    cases index with
    | true => exact Nat.le_refl _
    | false =>
      simp only [Bool.false_eq_true, if_false]
      refine steps_free_le fun p hp => ?_
      cases up with
      | true =>
        simp only [if_true, Bool.not_true] at hp ⊢
        by_cases hs : s = 0
        · subst hs
          cases hp
          rw [if_pos rfl]
          refine Nat.le_trans (getUncheckedC_steps _) ?_
          rw [h.s1_beyond (by
            have := h.ulim
            generalize D (n - 1) / 2 ^ ef.lowerLen = z at this
            omega)]
        · rw [dirIdx_down (by omega)] at hp
          cases hp
          rw [if_neg hs]
          exact getUncheckedC_steps _
      | false =>
        simp only [Bool.false_eq_true, if_false, Bool.not_false, dirIdx_up] at hp ⊢
        cases hp
        rw [Nat.sub_add_cancel he]
        exact getUncheckedC_steps _
  generalize (if index then 0 else if up then (if s = 0 then 1 else s1 ef (s - 1) + 1) else s1 ef e + 1) = o at *
  unfold searchC
  refine steps_free_le fun p hp => ?_
  refine steps_tick_le (b := 8 + s0 ef u + s0 ef (u + 1) + (e - s) + o) (by omega) fun b hb => ?_
  refine steps_ite_le (fun hpos => ?_) (fun _ => by omega)
  have hlt := B.in_block h (c := 0) B.se hp hb hpos
  refine steps_tick_le (b := 7 + s0 ef u + s0 ef (u + 1) + (e - s) + o) (by omega) fun b _ => ?_
  refine steps_ite_le (fun _ => ?_) (fun _ => by omega)
  have := linearC_steps h B (lq := lq) (m := m) hi 3 1 b (by omega) (by omega) (by omega) (by omega) (by omega)
  omega

/-- the number of elements with upper half less than `u` -/
def below (ef : EF) (n : Nat) (D : Nat → Nat) (u : Nat) : Nat := cnt (fun i => decide (hiD ef D i < u)) n

theorem cnt_all {f : Nat → Bool} : ∀ n, (∀ i, i < n → f i = true) → cnt f n = n
  | 0, _ => rfl
  | n + 1, h => by rw [cnt_succ, cnt_all n fun i hi => h i (by omega), h n (by omega)]; rfl

theorem cnt_split {f : Nat → Bool} {k : Nat} : ∀ n, k ≤ n → (∀ i, i < n → (f i = true ↔ i < k)) → cnt f n = k := by
  intro n
  induction n with
  | zero => intro hk _; have : k = 0 := by omega
            subst this; rfl
  | succ n ih =>
    intro hk h
    by_cases hkn : k ≤ n
    · have hf : f n = false := by
        cases hf : f n with
        | false => rfl
        | true => have := (h n (by omega)).mp hf; omega
      rw [cnt_succ, ih hkn fun i hi => h i (by omega), hf]; rfl
    · have hk' : k = n + 1 := by omega
      rw [cnt_all (n + 1) fun i hi => (h i hi).mpr (by omega), hk']

theorem Block.below_lo (B : Block ef n D u s e) : below ef n D u = s :=
  cnt_split n (Nat.le_trans B.se B.en) fun i hi => by rw [decide_eq_true_eq]; exact B.lo i hi

theorem Block.below_hi (B : Block ef n D u s e) : below ef n D (u + 1) = e :=
  cnt_split n B.en fun i hi => by rw [decide_eq_true_eq]; exact B.hi i hi

/-! ## sums -/

/-- `f 0 + … + f (n - 1)` -/
def S (f : Nat → Nat) (n : Nat) : Nat := ((List.range n).map f).sum

theorem S_zero (f : Nat → Nat) : S f 0 = 0 := rfl

theorem S_succ (f : Nat → Nat) (n : Nat) : S f (n + 1) = S f n + f n := by
  unfold S
  rw [List.range_succ, List.map_append, List.sum_append]
  simp only [List.map_cons, List.map_nil, List.sum_cons, List.sum_nil, Nat.add_zero]

theorem S_le {f g : Nat → Nat} : ∀ n, (∀ i, i < n → f i ≤ g i) → S f n ≤ S g n
  | 0, _ => Nat.le_refl _
  | n + 1, h => by
    rw [S_succ, S_succ]
    exact Nat.add_le_add (S_le n fun i hi => h i (by omega)) (h n (by omega))

theorem S_mono (f : Nat → Nat) {m : Nat} : ∀ n, m ≤ n → S f m ≤ S f n
  | 0, h => by
    have : m = 0 := by omega
    subst this; exact Nat.le_refl _
  | n + 1, h => by
    by_cases hm : m ≤ n
    · rw [S_succ]; exact Nat.le_trans (S_mono f n hm) (Nat.le_add_right _ _)
    · have : m = n + 1 := by omega
      rw [this]

theorem S_add (f g : Nat → Nat) : ∀ n, S (fun i => f i + g i) n = S f n + S g n
  | 0 => rfl
  | n + 1 => by rw [S_succ, S_succ, S_succ, S_add f g n]; omega

theorem S_const (c : Nat) : ∀ n, S (fun _ => c) n = c * n
  | 0 => rfl
  | n + 1 => by rw [S_succ, S_const c n, Nat.mul_succ]

theorem S_shift (f : Nat → Nat) : ∀ n, S (fun i => f (i + 1)) n ≤ S f (n + 1)
  | 0 => Nat.zero_le _
  | n + 1 => by rw [S_succ, S_succ f]; exact Nat.add_le_add_right (S_shift f n) _

/-- a telescope -/
theorem S_diff {f : Nat → Nat} (h : ∀ i, f i ≤ f (i + 1)) : ∀ n, S (fun i => f (i + 1) - f i) n + f 0 = f n
  | 0 => by rw [S_zero, Nat.zero_add]
  | n + 1 => by
    have ih := S_diff h n
    have := h n
    rw [S_succ]; omega

theorem S_interval {f : Nat → Nat} {c a : Nat} : ∀ b, a ≤ b → (∀ i, a ≤ i → i < b → f i = c) → S f b = S f a + (b - a) * c
  | 0, h, _ => by have : a = 0 := by omega
                  subst this; simp
  | b + 1, h, hf => by
    by_cases hab : a ≤ b
    · rw [S_succ, S_interval b hab fun i h1 h2 => hf i h1 (by omega), hf b hab (by omega),
        show b + 1 - a = (b - a) + 1 by omega, Nat.succ_mul]
      omega
    · have : a = b + 1 := by omega
      rw [this]; simp

/-- `W` equal summands each -/
theorem S_div (f : Nat → Nat) {W : Nat} (hW : 0 < W) : ∀ n, S (fun v => f (v / W)) (n * W) = W * S f n
  | 0 => by rw [Nat.zero_mul]; rfl
  | n + 1 => by
    rw [S_interval (a := n * W) (c := f n) ((n + 1) * W) (Nat.mul_le_mul_right _ (by omega)), S_div f hW n, S_succ,
      Nat.mul_add, show (n + 1) * W - n * W = W by rw [Nat.succ_mul]; omega]
    intro i h1 h2
    congr 1
    rw [Nat.div_eq_iff hW]
    rw [Nat.succ_mul] at h2
    omega

/-! ## the sum of the steps -/

variable {ef : EF} {n : Nat} {D : Nat → Nat}

theorem below_mono (ef : EF) (n : Nat) (D : Nat → Nat) (u : Nat) : below ef n D u ≤ below ef n D (u + 1) := by
  unfold below
  induction n with
  | zero => exact Nat.le_refl _
  | succ n ih =>
    rw [cnt_succ, cnt_succ]
    refine Nat.add_le_add ih ?_
    by_cases h : hiD ef D n < u
    · rw [decide_eq_true h, decide_eq_true (show hiD ef D n < u + 1 by omega)]
    · rw [decide_eq_false h]; exact Nat.zero_le _

theorem below_le (ef : EF) (n : Nat) (D : Nat → Nat) (u : Nat) : below ef n D u ≤ n := by
  unfold below
  induction n with
  | zero => exact Nat.le_refl _
  | succ n ih => rw [cnt_succ]; exact Nat.add_le_add ih (by cases decide (hiD ef D n < u) <;> decide)

/-- the number of zeros of the upper half -/
theorem Inv.count_zeros (h : ef.Inv n D) : C ef.upper.data false ef.upper.len = hiD ef D (n - 1) + 2 := by
  have c1 := C_compl ef.upper.data ef.upper.len
  have c2 := h.count_upper
  have c3 := h.ulen
  unfold hiD
  omega

theorem Inv.sum_s0 (h : ef.Inv n D) :
    S (s0 ef) (hiD ef D (n - 1) + 2) ≤ 10 * (hiD ef D (n - 1) + 2) + 2 * n := by
  have h2 := RsVec.sum_selectC h.up true (hiD ef D (n - 1) + 2) (by rw [Bool.not_true, h.count_zeros])
  rw [Bool.not_true, h.count_zeros, if_neg (Nat.lt_irrefl _)] at h2
  have hwf := h.up.wf
  have hsl := h.up.slen
  have hu := h.ulen
  have : S (s0 ef) (hiD ef D (n - 1) + 2) ≤ _ := h2
  unfold hiD at *
  omega

theorem Inv.sum_s1 (h : ef.Inv n D) : S (s1 ef) n ≤ 10 * n + 2 * (hiD ef D (n - 1) + 2) := by
  have h2 := RsVec.sum_selectC h.up false n (by rw [Bool.not_false, h.count_upper])
  rw [Bool.not_false, h.count_upper, if_neg (Nat.lt_irrefl _)] at h2
  have hwf := h.up.wf
  have hsl := h.up.slen
  have hu := h.ulen
  have : S (s1 ef) n ≤ _ := h2
  unfold hiD at *
  omega

/-- what a search in the block `u` takes without looking for an element outside -/
def blockCost (ef : EF) (n : Nat) (D : Nat → Nat) (u : Nat) : Nat :=
  9 + 2 * s0 ef u + 2 * s0 ef (u + 1) + (below ef n D (u + 1) - below ef n D u)

theorem Inv.sum_blockCost (h : ef.Inv n D) :
    S (blockCost ef n D) (hiD ef D (n - 1) + 1) ≤ 49 * (hiD ef D (n - 1) + 2) + 9 * n := by
  have e : blockCost ef n D = fun u => ((fun _ => 9) u + (s0 ef u + s0 ef u)) +
      ((fun u => s0 ef (u + 1)) u + (fun u => s0 ef (u + 1)) u) + (fun u => below ef n D (u + 1) - below ef n D u) u := by
    funext u; unfold blockCost; simp only; omega
  rw [e, S_add, S_add, S_add, S_add, S_add, S_const]
  have h1 := h.sum_s0
  have h2 : S (s0 ef) (hiD ef D (n - 1) + 1) ≤ S (s0 ef) (hiD ef D (n - 1) + 2) := S_mono _ _ (Nat.le_succ _)
  have h3 : S (fun u => s0 ef (u + 1)) (hiD ef D (n - 1) + 1) ≤ S (s0 ef) (hiD ef D (n - 1) + 2) := S_shift (s0 ef) _
  have h4 := S_diff (f := below ef n D) (below_mono ef n D) (hiD ef D (n - 1) + 1)
  have h5 := below_le ef n D (hiD ef D (n - 1) + 1)
  have h6 : S (fun u => s0 ef u) (hiD ef D (n - 1) + 1) = S (s0 ef) (hiD ef D (n - 1) + 1) := rfl
  omega

/-- A value that depends on the number of smaller elements: each number occurs at most `M` times. -/
theorem Inv.sum_below (h : ef.Inv n D) (F : Nat → Nat) {M : Nat}
    (hM : ∀ i, i + 1 < n → hiD ef D (i + 1) - hiD ef D i ≤ M) : ∀ k, k < n →
    S (fun u => F (below ef n D u)) (hiD ef D k + 1) ≤ F 0 + M * S (fun i => F (i + 1)) k
  | 0, hk => by
    have h0 : hiD ef D 0 = 0 := by unfold hiD; rw [h.d0]; exact Nat.zero_div _
    rw [h0, S_succ, S_zero, S_zero, Nat.mul_zero, Nat.zero_add, Nat.add_zero]
    have : below ef n D 0 = 0 := cnt_split n (Nat.zero_le _) fun i _ => by rw [decide_eq_true_eq]; omega
    rw [this]
  | k + 1, hk => by
    have ih := Inv.sum_below h F hM k (by omega)
    have hm := h.hi_mono (i := k) (j := k + 1) (by omega) hk
    rw [S_interval (a := hiD ef D k + 1) (c := F (k + 1)) _ (by omega), S_succ (fun i => F (i + 1)), Nat.mul_add]
    · have := Nat.mul_le_mul_right (F (k + 1)) (hM k hk)
      rw [show hiD ef D (k + 1) + 1 - (hiD ef D k + 1) = hiD ef D (k + 1) - hiD ef D k by omega]
      omega
    · intro u h1 h2
      congr 1
      refine cnt_split n (by omega) fun i hi => ?_
      rw [decide_eq_true_eq]
      constructor
      · intro hlt
        refine Decidable.byContradiction fun hc => ?_
        have := h.hi_mono (i := k + 1) (j := i) (by omega) hi
        omega
      · intro hlt
        have := h.hi_mono (i := i) (j := k) (by omega) (by omega)
        omega

/-! ## the queries -/

variable {data : List Word}

theorem Inv.below_pos (h : ef.Inv n D) (u : Nat) : 1 ≤ below ef n D (u + 1) := by
  have h0 : hiD ef D 0 = 0 := by unfold hiD; rw [h.d0]; exact Nat.zero_div _
  have hp := h.pos
  obtain ⟨m, rfl⟩ : ∃ m, n = m + 1 := ⟨n - 1, by omega⟩
  clear h hp
  unfold below
  induction m with
  | zero => rw [cnt_succ, h0, decide_eq_true (Nat.succ_pos u)]; exact Nat.le_add_left _ _
  | succ m ih => rw [cnt_succ]; omega

/-- the block of a query -/
abbrev upperOf (ef : EF) (x : Word) : Nat := (x.toNat - ef.zero.toNat) / 2 ^ ef.lowerLen

theorem Stores.rankC_steps (h : ef.Stores data) {x : Word} (h0 : ef.zero.toNat ≤ x.toNat) (h1 : x.toNat ≤ ef.max.toNat) :
    (ef.rankC x).steps ≤ blockCost ef data.length (efD data) (upperOf ef x) := by
  unfold rankC
  refine steps_ite_le (fun _ => Nat.zero_le _) fun _ => steps_ite_le (fun _ => Nat.zero_le _) fun _ => ?_
  refine steps_free_le fun q hq => ?_
  obtain ⟨q', q1, q2⟩ := subW_of_le (a := x) (b := ef.zero) h0
  rw [q1] at hq; cases hq
  obtain ⟨s, e, B⟩ := h.block (h.max_sub h1 q2)
  have hs := searchC_steps h.inv B (index := true) (up := true) (q := q)
    (lq := q &&& ((1#64 <<< ef.lowerLen) - 1#64)) (m := BitVec.ofNat 64 (q >>> ef.lowerLen).toNat <<< ef.lowerLen) (fun _ => rfl) (by rw [← B.below_hi]; exact h.inv.below_pos _)
  have hl := B.below_lo
  have hr := B.below_hi
  have hu : (q >>> ef.lowerLen).toNat = upperOf ef x := by rw [shr_toNat, q2]
  rw [hu] at hs hl hr B ⊢
  simp only [if_true] at hs
  unfold blockCost
  rw [hl, hr]
  refine steps_bind_le (Nat.le_refl (s0 ef (upperOf ef x))) (b := 9 + s0 ef (upperOf ef x) + s0 ef (upperOf ef x + 1) + (e - s)) (by omega)
    fun su hsu => steps_free_le fun sl hsl => ?_
  rw [RsVec.selectC_result, B.sel_open h.inv] at hsu
  cases hsu
  rw [subR_of_le (by omega), Nat.add_sub_cancel_left] at hsl
  cases hsl
  exact hs

/-- the element before a block -/
def prevCost (ef : EF) (k : Nat) : Nat := if k = 0 then 1 else s1 ef (k - 1) + 1

/-- the element behind a block -/
def nextCost (ef : EF) (k : Nat) : Nat := s1 ef k + 1

theorem Stores.predecessorC_steps (h : ef.Stores data) {x : Word} (h0 : ef.zero.toNat ≤ x.toNat)
    (h1 : x.toNat ≤ ef.max.toNat) :
    (ef.predecessorC x).steps ≤ blockCost ef data.length (efD data) (upperOf ef x) +
      prevCost ef (below ef data.length (efD data) (upperOf ef x)) := by
  unfold predecessorC
  refine steps_ite_le (fun _ => Nat.zero_le _) fun _ => Nat.le_trans (Nat.le_of_eq (steps_map _ _)) ?_
  unfold predecessorUncheckedC
  rw [if_neg (by rw [gt_iff_toNat]; omega)]
  refine steps_free_le fun q hq => ?_
  obtain ⟨q', q1, q2⟩ := subW_of_le (a := x) (b := ef.zero) h0
  rw [q1] at hq; cases hq
  obtain ⟨s, e, B⟩ := h.block (h.max_sub h1 q2)
  have hs := searchC_steps h.inv B (index := false) (up := true) (q := q)
    (lq := q &&& ((1#64 <<< ef.lowerLen) - 1#64)) (m := BitVec.ofNat 64 (q >>> ef.lowerLen).toNat <<< ef.lowerLen) (fun _ => rfl) (by rw [← B.below_hi]; exact h.inv.below_pos _)
  have hl := B.below_lo
  have hr := B.below_hi
  have hu : (q >>> ef.lowerLen).toNat = upperOf ef x := by rw [shr_toNat, q2]
  rw [hu] at hs hl hr B ⊢
  simp only [if_true, Bool.false_eq_true, if_false] at hs
  unfold blockCost prevCost
  rw [hl, hr]
  refine steps_bind_le (Nat.le_refl (s0 ef (upperOf ef x))) (b := 9 + s0 ef (upperOf ef x) + s0 ef (upperOf ef x + 1) + (e - s) +
    (if s = 0 then 1 else s1 ef (s - 1) + 1)) (by omega)
    fun su hsu => steps_free_le fun sl hsl => ?_
  rw [RsVec.selectC_result, B.sel_open h.inv] at hsu
  cases hsu
  rw [subR_of_le (by omega), Nat.add_sub_cancel_left] at hsl
  cases hsl
  exact hs

theorem Stores.successorC_steps (h : ef.Stores data) {x : Word} (h0 : ef.zero.toNat ≤ x.toNat)
    (h1 : x.toNat ≤ ef.max.toNat) :
    (ef.successorC x).steps ≤ blockCost ef data.length (efD data) (upperOf ef x) +
      nextCost ef (below ef data.length (efD data) (upperOf ef x + 1)) := by
  unfold successorC
  refine steps_ite_le (fun _ => Nat.zero_le _) fun _ => Nat.le_trans (Nat.le_of_eq (steps_map _ _)) ?_
  unfold successorUncheckedC
  rw [if_neg (by rw [BitVec.lt_def]; omega)]
  refine steps_free_le fun q hq => ?_
  obtain ⟨q', q1, q2⟩ := subW_of_le (a := x) (b := ef.zero) h0
  rw [q1] at hq; cases hq
  obtain ⟨s, e, B⟩ := h.block (h.max_sub h1 q2)
  have hs := searchC_steps h.inv B (index := false) (up := false) (q := q)
    (lq := q &&& ((1#64 <<< ef.lowerLen) - 1#64)) (m := BitVec.ofNat 64 (q >>> ef.lowerLen).toNat <<< ef.lowerLen) (fun h' => h') (by rw [← B.below_hi]; exact h.inv.below_pos _)
  have hl := B.below_lo
  have hr := B.below_hi
  have hu : (q >>> ef.lowerLen).toNat = upperOf ef x := by rw [shr_toNat, q2]
  have hp := h.inv.below_pos (q >>> ef.lowerLen).toNat
  rw [hu] at hs hl hr hp B ⊢
  simp only [Bool.false_eq_true, if_false] at hs
  unfold blockCost nextCost
  rw [hr] at hp
  rw [hl, hr]
  refine steps_free_le fun k hk => ?_
  have hlim : upperOf ef x + 1 < 2 ^ 64 := by
    have h1 := B.hu
    have h2 := h.inv.ulim
    unfold hiD at h1
    omega
  rw [addU_of_lt hlim] at hk
  have hk' : k = upperOf ef x + 1 := by cases hk; rfl
  subst hk'
  refine steps_bind_le (Nat.le_refl (s0 ef (upperOf ef x + 1))) (b := 9 + s0 ef (upperOf ef x) + s0 ef (upperOf ef x + 1) + (e - s) +
    (s1 ef e + 1)) (by omega)
    fun su hsu => steps_free_le fun sl hsl => steps_free_le fun sl' hsl' => ?_
  rw [RsVec.selectC_result, B.sel_close h.inv] at hsu
  cases hsu
  rw [subR_of_le (by omega)] at hsl
  cases hsl
  rw [subR_of_le (by omega), show upperOf ef x + 1 + e - upperOf ef x - 2 = e - 1 by omega] at hsl'
  cases hsl'
  exact hs

/-! ## all queries -/

theorem valuesBetween_sum (lo hi : Word) (f : Word → Nat) :
    ((valuesBetween lo hi).map f).sum = S (fun i => f (BitVec.ofNat 64 (lo.toNat + i))) (hi.toNat - lo.toNat + 1) := by
  unfold valuesBetween S
  rw [List.map_map]
  rfl

theorem length_valuesBetween (lo hi : Word) : (valuesBetween lo hi).length = hi.toNat - lo.toNat + 1 := by
  unfold valuesBetween
  rw [List.length_map, List.length_range]

/-- queries whose cost depends on the block -/
theorem Stores.sum_queries (h : ef.Stores data) (f : Word → Nat) (T : Nat → Nat)
    (hf : ∀ x, ef.zero.toNat ≤ x.toNat → x.toNat ≤ ef.max.toNat → f x ≤ T (upperOf ef x)) :
    ((valuesBetween ef.zero ef.max).map f).sum ≤
      2 ^ ef.lowerLen * S T (hiD ef (efD data) (data.length - 1) + 1) := by
  rw [valuesBetween_sum]
  have hm := h.inv.max
  have hb := ef.max.isLt
  have hW : 0 < 2 ^ ef.lowerLen := Nat.two_pow_pos _
  refine Nat.le_trans (S_le (g := fun v => T (v / 2 ^ ef.lowerLen)) _ fun i hi => ?_) ?_
  · have ht : (BitVec.ofNat 64 (ef.zero.toNat + i)).toNat = ef.zero.toNat + i := toNat_ofNat_lt (by omega)
    have := hf (BitVec.ofNat 64 (ef.zero.toNat + i)) (by omega) (by omega)
    unfold upperOf at this
    rw [ht, Nat.add_sub_cancel_left] at this
    exact this
  · rw [← S_div T hW]
    refine S_mono _ _ ?_
    unfold hiD
    have := Nat.lt_div_mul_add (a := efD data (data.length - 1)) hW
    rw [Nat.succ_mul]
    omega

theorem Stores.sum_prev (h : ef.Stores data) {M : Nat}
    (hM : ∀ i, i + 1 < data.length → hiD ef (efD data) (i + 1) - hiD ef (efD data) i ≤ M) :
    S (fun u => prevCost ef (below ef data.length (efD data) u)) (hiD ef (efD data) (data.length - 1) + 1) ≤
      M * (S (s1 ef) data.length + data.length) + 1 := by
  have hp := h.pos
  have h1 := h.inv.sum_below (prevCost ef) hM (data.length - 1) (by omega)
  have h2 : S (fun i => prevCost ef (i + 1)) (data.length - 1) ≤ S (s1 ef) data.length + data.length := by
    refine Nat.le_trans (S_mono _ _ (Nat.sub_le _ 1)) ?_
    have := S_add (s1 ef) (fun _ => 1) data.length
    rw [S_const, Nat.one_mul] at this
    rw [← this]
    exact S_le _ fun i _ => Nat.le_refl _
  have h3 : prevCost ef 0 = 1 := rfl
  have := Nat.mul_le_mul_left M h2
  omega

theorem Stores.sum_next (h : ef.Stores data) {M : Nat}
    (hM : ∀ i, i + 1 < data.length → hiD ef (efD data) (i + 1) - hiD ef (efD data) i ≤ M) :
    S (fun u => nextCost ef (below ef data.length (efD data) (u + 1))) (hiD ef (efD data) (data.length - 1) + 1) ≤
      (M + 1) * (S (s1 ef) data.length + data.length) + 1 := by
  have hp := h.pos
  have h0 := S_shift (fun u => nextCost ef (below ef data.length (efD data) u)) (hiD ef (efD data) (data.length - 1) + 1)
  rw [S_succ _ (hiD ef (efD data) (data.length - 1) + 1)] at h0
  have h1 := h.inv.sum_below (nextCost ef) hM (data.length - 1) (by omega)
  have hsum := S_add (s1 ef) (fun _ => 1) data.length
  rw [S_const, Nat.one_mul] at hsum
  have h2 : S (fun i => nextCost ef (i + 1)) (data.length - 1) ≤ S (s1 ef) data.length + data.length := by
    rw [← hsum]
    refine Nat.le_trans (S_shift (nextCost ef) _) ?_
    rw [Nat.sub_add_cancel hp]
    exact S_le _ fun i _ => Nat.le_refl _
  have h3 : nextCost ef 0 ≤ S (s1 ef) data.length + data.length := by
    rw [← hsum]
    refine Nat.le_trans ?_ (S_mono _ _ hp)
    rw [S_succ, S_zero, Nat.zero_add]
    exact Nat.le_refl _
  have h4 : below ef data.length (efD data) (hiD ef (efD data) (data.length - 1) + 1) = data.length := by
    refine cnt_all _ fun i hi => ?_
    have := h.inv.hi_mono (i := i) (j := data.length - 1) (by omega) (by omega)
    rw [decide_eq_true_eq]; omega
  have h5 : nextCost ef data.length = 1 := by
    unfold nextCost
    rw [h.inv.s1_beyond (Nat.le_refl _)]
  rw [h4, h5] at h0
  have := Nat.mul_le_mul_left M h2
  rw [Nat.succ_mul]
  omega

/-- the sizes -/
theorem sizes_le {fl : Nat → Nat} (hfl : LogLike fl) {data : List Word} {ef : EF} (hne : data ≠ [])
    (h : EF.fromSlice fl data = .ok ef) (hs : Sorted data) (hl : data.length < 2 ^ 60) :
    2 ^ ef.lowerLen * (hiD ef (efD data) (data.length - 1) + 2 + data.length) ≤
      25 * efD data (data.length - 1) + 24 * data.length + 48 ∧
    efD data (data.length - 1) + 1 ≤ 2 ^ ef.lowerLen * (25 * data.length) := by
  obtain ⟨ef', e1, e2, -⟩ := fromSlice_inv hfl hs hne hl
  obtain rfl : ef' = ef := by rw [h] at e1; cases e1; rfl
  have hu := upper_len_le hfl hne e1 hs hl
  rw [e2.ulen] at hu
  obtain ⟨w, u, w1, w2, w3, -⟩ := fromSlice_parts hfl hne e1 hs hl
  have hn : 0 < data.length := List.length_pos_iff.mpr hne
  have hD : efD data (data.length - 1) < 2 ^ 64 := by
    have := efD_add hs (show data.length - 1 < data.length by omega)
    have := (data[data.length - 1]).isLt
    omega
  unfold hiD
  rw [w3] at hu ⊢
  generalize efD data (data.length - 1) = D at *
  generalize data.length = n at *
  have hW : 0 < 2 ^ w := Nat.two_pow_pos _
  have hb2 : Nat.max D 2 < 2 ^ 64 := Nat.max_lt.mpr ⟨hD, by omega⟩
  have hn2 : Nat.max n 2 < 2 ^ 64 := Nat.max_lt.mpr ⟨by omega, by omega⟩
  have a1 := hfl.upper (Nat.max D 2) (Nat.le_max_right _ _) hb2
  have a2 := hfl.upper (n + 2) (by omega) (by omega)
  have a3 := hfl.lower (Nat.max n 2) (Nat.le_max_right _ _) hn2
  have hm : Nat.max D 2 ≤ D + 2 := Nat.max_le.mpr ⟨by omega, by omega⟩
  have hnm : n ≤ Nat.max n 2 := Nat.le_max_left _ _
  have e : 2 ^ w * 2 ^ fl (Nat.max n 2) ≤ 4 * (D + n + 2) := by
    rw [← Nat.pow_add, ← w1]
    rcases Nat.le_total (fl (Nat.max D 2)) (fl (n + 2)) with hc | hc
    · rw [show Nat.max (fl (Nat.max D 2)) (fl (n + 2)) = fl (n + 2) from Nat.max_eq_right hc]; omega
    · rw [show Nat.max (fl (Nat.max D 2)) (fl (n + 2)) = fl (Nat.max D 2) from Nat.max_eq_left hc]; omega
  have e' : 2 ^ w * n ≤ 8 * (D + n + 2) := by
    have : 2 ^ w * n ≤ 2 ^ w * (2 ^ fl (Nat.max n 2) * 2) := by
      rw [← Nat.pow_succ]; exact Nat.mul_le_mul_left _ (by omega)
    rw [← Nat.mul_assoc] at this
    omega
  have e'' : 2 ^ w ≤ 2 ^ w * n := Nat.le_mul_of_pos_right _ hn
  have hd := Nat.mul_div_le D (2 ^ w)
  constructor
  · rw [Nat.mul_add, Nat.mul_add]
    omega
  · have h1 := Nat.lt_mul_div_succ D hW
    have h2 : 2 ^ w * (D / 2 ^ w + 1) ≤ 2 ^ w * (25 * n) := Nat.mul_le_mul_left _ (by omega)
    omega

/-! ## A query in a block without elements looks up the neighbour -/

theorem steps_bind_ge {α β : Type} {x : Counted α} {a : α} (h : x.result = .ok a) {f : α → Counted β} {k : Nat}
    (hk : k ≤ (f a).steps) : k ≤ (x >>= f).steps := by
  rw [bind_of h]
  exact Nat.le_trans hk (Nat.le_add_left _ _)

theorem Block.searchC_empty (h : ef.Inv n D) (B : Block ef n D u s s) {up : Bool} {q lq m : Word} (hs : 1 ≤ s) :
    s1 ef (if up then s - 1 else s) ≤
      (searchC ef false up (if up then u + s else u + 1 + s) (if up then s else s - 1) q u lq m).steps := by
  unfold searchC
  have hbit : ∃ p, dirIdx up (if up then u + s else u + 1 + s) 1 = .ok p ∧ ef.upper.getUnchecked p = .ok (b2w false) := by
    cases up with
    | true =>
      refine ⟨u + s + 1, by simp [dirIdx_up], ?_⟩
      rw [B.bit h (Nat.le_refl _) (Nat.le_refl _)]
      simp
    | false =>
      refine ⟨u + s, ?_, B.bit_open h⟩
      simp only [Bool.false_eq_true, if_false]
      rw [dirIdx_down (by omega), show u + 1 + s - 1 = u + s by omega]
  obtain ⟨p, p1, p2⟩ := hbit
  have hd : dirIdx (!up) (if up then s else s - 1) 1 = .ok (if up then s - 1 else s) := by
    cases up with
    | true => simp only [if_true, Bool.not_true]; rw [dirIdx_down (by omega)]
    | false => simp only [Bool.false_eq_true, if_false, Bool.not_false, dirIdx_up, Nat.sub_add_cancel hs]
  generalize (if up = true then s - 1 else s) = k at hd ⊢
  refine steps_bind_ge (x := free _) p1 (steps_bind_ge (x := tick _) p2 ?_)
  rw [if_neg (by decide)]
  unfold searchOutsideC
  simp only [Bool.false_eq_true, if_false]
  refine steps_bind_ge (x := free _) hd ?_
  unfold getUncheckedC
  exact steps_le_bind _ _

theorem Stores.predecessorC_empty (h : ef.Stores data) {x : Word} (h0 : ef.zero.toNat ≤ x.toNat)
    (h1 : x.toNat ≤ ef.max.toNat) {s : Nat} (B : Block ef data.length (efD data) (upperOf ef x) s s) (hs : 1 ≤ s) :
    s1 ef (s - 1) ≤ (ef.predecessorC x).steps := by
  unfold predecessorC
  have hp := h.pos
  rw [if_neg (by rw [BitVec.lt_def, h.inv.len]; omega)]
  refine Nat.le_trans ?_ (Nat.le_of_eq (steps_map _ _).symm)
  unfold predecessorUncheckedC
  rw [if_neg (by rw [gt_iff_toNat]; omega)]
  obtain ⟨q, q1, q2⟩ := subW_of_le (a := x) (b := ef.zero) h0
  refine steps_bind_ge (x := free _) q1 ?_
  have hu : (q >>> ef.lowerLen).toNat = upperOf ef x := by rw [shr_toNat, q2]
  simp only [hu]
  refine steps_bind_ge (a := upperOf ef x + s) (by rw [RsVec.selectC_result]; exact B.sel_open h.inv) ?_
  refine steps_bind_ge (x := free _) (subR_of_le (by omega)) ?_
  rw [Nat.add_sub_cancel_left]
  exact B.searchC_empty h.inv (up := true) hs

theorem Stores.successorC_empty (h : ef.Stores data) {x : Word} (h0 : ef.zero.toNat ≤ x.toNat)
    (h1 : x.toNat ≤ ef.max.toNat) {s : Nat} (B : Block ef data.length (efD data) (upperOf ef x) s s) (hs : 1 ≤ s) :
    s1 ef s ≤ (ef.successorC x).steps := by
  unfold successorC
  have hp := h.pos
  rw [if_neg (by rw [gt_iff_toNat, h.inv.len]; omega)]
  refine Nat.le_trans ?_ (Nat.le_of_eq (steps_map _ _).symm)
  unfold successorUncheckedC
  rw [if_neg (by rw [BitVec.lt_def]; omega)]
  obtain ⟨q, q1, q2⟩ := subW_of_le (a := x) (b := ef.zero) h0
  refine steps_bind_ge (x := free _) q1 ?_
  have hu : (q >>> ef.lowerLen).toNat = upperOf ef x := by rw [shr_toNat, q2]
  have hlim : upperOf ef x + 1 < 2 ^ 64 := by
    have h1 := B.hu
    have h2 := h.inv.ulim
    unfold hiD at h1
    omega
  simp only [hu]
  refine steps_bind_ge (x := free _) (addU_of_lt hlim) ?_
  refine steps_bind_ge (a := upperOf ef x + 1 + s) (by rw [RsVec.selectC_result]; exact B.sel_close h.inv) ?_
  refine steps_bind_ge (x := free _) (subR_of_le (by omega)) ?_
  refine steps_bind_ge (x := free _) (subR_of_le (by omega)) ?_
  rw [show upperOf ef x + 1 + s - upperOf ef x - 2 = s - 1 by omega]
  exact B.searchC_empty h.inv (up := false) hs

/-- The element with index `k` in the first 8192: its super block is found by a linear search from the first. -/
theorem Inv.s1_ge (h : ef.Inv n D) {k m : Nat} (hk : k < n) (hk' : k < 8192) (hm : 8192 * m ≤ hiD ef D k + k + 1) :
    m ≤ s1 ef k := by
  have hcn := h.count_upper
  obtain ⟨s, a1, -, a3⟩ := RsVec.selectC_steps h.up false (r := k) (by rw [Bool.not_false, hcn]; exact hk)
  have hs := a3 (Or.inl rfl)
  have hk0 : k / 8192 = 0 := by omega
  have hhint : SelIter.hint ef.upper false 0 = 0 := by
    unfold SelIter.hint
    cases hs : ef.upper.selects[0]? with
    | none => rfl
    | some e => exact (h.up.sel false).first e hs
  rw [hk0, hhint] at hs
  have hp := h.onePos hk
  have hlt := h.pos_lt hk
  have hms : m ≤ s := by
    refine Decidable.byContradiction fun hc => ?_
    have hwf := h.up.wf
    have hsl := h.up.slen
    have e1 := a1.2.2 (by omega)
    have e2 := C_mono ef.upper.data true (i := 8192 * (s + 1)) (j := hiD ef D k + k + 1) (by omega)
    have e3 := hp.2
    rw [Bool.not_false] at e1
    omega
  unfold s1
  omega

theorem S_ge_interval {f : Nat → Nat} {c a : Nat} : ∀ b, a ≤ b → (∀ i, a ≤ i → i < b → c ≤ f i) →
    (b - a) * c ≤ S f b
  | 0, h, _ => by simp
  | b + 1, h, hf => by
    by_cases hab : a ≤ b
    · have := S_ge_interval b hab fun i h1 h2 => hf i h1 (by omega)
      have := hf b hab (by omega)
      rw [S_succ, show b + 1 - a = (b - a) + 1 by omega, Nat.succ_mul]
      omega
    · have : b + 1 - a = 0 := by omega
      rw [this, Nat.zero_mul]; exact Nat.zero_le _

end EF

end Vers
