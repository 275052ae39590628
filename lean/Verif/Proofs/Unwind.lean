import Verif.SpecUnwind
import Verif.Proofs.BitVecOps4
import Verif.Proofs.EfIter

/-! # Calls that panic leave the object as it was -/

set_option linter.unusedSimpArgs false

namespace Vers

variable [Profile]
open Spec

namespace Mut
variable {σ τ α β : Type}

omit [Profile] in
theorem bind_ok {x : Mut σ α} {f : α → Mut σ β} {s s' : σ} {a : α} (h : x s = (.ok a, s')) :
    (x >>= f) s = f a s' := by
  show Mut.bind x f s = _
  unfold Mut.bind; rw [h]

omit [Profile] in
theorem bind_error {x : Mut σ α} {f : α → Mut σ β} {s s' : σ} {e : Panic} (h : x s = (.error e, s')) :
    (x >>= f) s = (.error e, s') := by
  show Mut.bind x f s = _
  unfold Mut.bind; rw [h]

omit [Profile] in
@[simp] theorem get_bind {f : σ → Mut σ β} {s : σ} : (Mut.get >>= f) s = f s s := bind_ok rfl

omit [Profile] in
@[simp] theorem modify_bind {g : σ → σ} {f : Unit → Mut σ β} {s : σ} : (Mut.modify g >>= f) s = f () (g s) :=
  bind_ok rfl

omit [Profile] in
@[simp] theorem lift_ok_bind {a : α} {f : α → Mut σ β} {s : σ} : (Mut.lift (.ok a) >>= f) s = f a s := bind_ok rfl

omit [Profile] in
@[simp] theorem lift_error_bind {e : Panic} {f : α → Mut σ β} {s : σ} :
    (Mut.lift (.error e) >>= f) s = (.error e, s) := bind_error rfl

omit [Profile] in
@[simp] theorem pure_bind' {a : α} {f : α → Mut σ β} {s : σ} : ((pure a : Mut σ α) >>= f) s = f a s := bind_ok rfl

omit [Profile] in
@[simp] theorem pure_apply {a : α} {s : σ} : (pure a : Mut σ α) s = (.ok a, s) := rfl

omit [Profile] in
@[simp] theorem modify_apply {g : σ → σ} {s : σ} : Mut.modify g s = (.ok (), g s) := rfl

omit [Profile] in
@[simp] theorem lift_apply {x : R α} {s : σ} : (Mut.lift x : Mut σ α) s = (x, s) := rfl

omit [Profile] in
theorem ite_apply' {c : Prop} [Decidable c] (x y : Mut σ α) (s : σ) : (if c then x else y) s = if c then x s else y s := by
  split <;> rfl

end Mut

/-- the outcome of a method without result -/
def done (v : BV) (r : R BV) : R Unit × BV := settle v (r.map fun v' => (v', ()))

/-- the outcome of a method that returns `Ok` or `Err`, where `Err` leaves the object as it is -/
def doneOpt (v : BV) (r : R (Option BV)) : R Bool × BV :=
  settle v (r.map fun o => (o.getD v, o.isSome))

namespace BV

omit [Profile] in
theorem limbM_ok {v : BV} {i : Nat} (h : i < v.data.length) (f : Word → Word) :
    limbM i f v = (.ok (), ⟨v.data.set i (f v.data[i]), v.len⟩) := by
  unfold limbM; rw [Mut.get_bind, idx_of_lt h, Mut.lift_ok_bind]; rfl

omit [Profile] in
theorem limbM_error {v : BV} {i : Nat} (h : ¬i < v.data.length) (f : Word → Word) :
    limbM i f v = (.error .oob, v) := by
  unfold limbM; rw [Mut.get_bind]
  have : idx v.data i = .error .oob := by unfold idx; rw [List.getElem?_eq_none (by omega)]
  rw [this, Mut.lift_error_bind]

omit [Profile] in
theorem idx_error {α : Type} {d : List α} {i : Nat} (h : ¬i < d.length) : idx d i = .error .oob := by
  unfold idx; rw [List.getElem?_eq_none (by omega)]

omit [Profile] in
theorem setIdx_ok {α : Type} {d : List α} {i : Nat} (h : i < d.length) (x : α) : setIdx d i x = .ok (d.set i x) := by
  unfold setIdx; rw [if_pos h]

omit [Profile] in
theorem appendM_eq {v : BV} (h : v.len ≤ 64 * v.data.length) (b : Bool) : appendM b v = done v (v.append b) := by
  unfold appendM append pushIfM
  rw [Mut.get_bind]
  by_cases hm : v.len % 64 = 0
  · simp only [hm, if_true]
    have hl : v.len / 64 < (v.data ++ [0#64]).length := by simp; omega
    rw [Mut.bind_ok (show pushM 0#64 v = (.ok (), ⟨v.data ++ [0#64], v.len⟩) from rfl),
      Mut.bind_ok (limbM_ok (v := ⟨v.data ++ [0#64], v.len⟩) hl _), idx_of_lt hl, ok_bind, setIdx_ok hl, ok_bind]
    rfl
  · simp only [hm, if_false]
    have hl : v.len / 64 < v.data.length := by omega
    rw [Mut.pure_bind', Mut.bind_ok (limbM_ok hl _), idx_of_lt hl, ok_bind, setIdx_ok hl, ok_bind]
    rfl

omit [Profile] in
theorem appendBitM_eq {v : BV} (h : v.len ≤ 64 * v.data.length) (w : Word) :
    appendBitM w v = done v (v.appendBit w) := by
  unfold appendBitM appendBit pushIfM
  rw [Mut.get_bind]
  by_cases hm : v.len % 64 = 0
  · simp only [hm, if_true]
    have hl : v.len / 64 < (v.data ++ [0#64]).length := by simp; omega
    rw [Mut.bind_ok (show pushM 0#64 v = (.ok (), ⟨v.data ++ [0#64], v.len⟩) from rfl),
      Mut.bind_ok (limbM_ok (v := ⟨v.data ++ [0#64], v.len⟩) hl _), idx_of_lt hl, ok_bind, setIdx_ok hl, ok_bind]
    rfl
  · simp only [hm, if_false]
    have hl : v.len / 64 < v.data.length := by omega
    rw [Mut.pure_bind', Mut.bind_ok (limbM_ok hl _), idx_of_lt hl, ok_bind, setIdx_ok hl, ok_bind]
    rfl

omit [Profile] in
theorem fillM_ok {v : BV} (w : Word) (more : Prop) [Decidable more] (hl : v.len / 64 < v.data.length) :
    fillM v.len w more v = (.ok (), ⟨
      (v.data.set (v.len / 64) (v.data[v.len / 64] &&& ~~~(BitVec.allOnes 64 <<< (v.len % 64)) |||
        w <<< (v.len % 64))) ++ (if more then [w >>> (64 - v.len % 64)] else []), v.len⟩) := by
  unfold fillM
  rw [Mut.bind_ok (limbM_ok hl _), Mut.bind_ok (limbM_ok (by simpa using hl) _)]
  unfold pushIfM pushM
  by_cases hc : more
  · rw [if_pos hc]; simp [hc]
  · rw [if_neg hc]; simp [hc]

omit [Profile] in
theorem fillM_error {v : BV} (w : Word) (more : Prop) [Decidable more] (hl : ¬v.len / 64 < v.data.length) :
    fillM v.len w more v = (.error .oob, v) := by
  unfold fillM
  rw [Mut.bind_error (limbM_error hl _)]

omit [Profile] in
theorem appendWordM_eq (v : BV) (w : Word) : appendWordM w v = done v (v.appendWord w) := by
  unfold appendWordM appendWord storeM
  rw [Mut.get_bind]
  by_cases hm : v.len % 64 = 0
  · simp only [hm, if_true]; rfl
  · simp only [hm, if_false]
    by_cases hl : v.len / 64 < v.data.length
    · rw [Mut.bind_ok (fillM_ok w True hl), idx_of_lt hl, ok_bind, setIdx_ok hl, ok_bind]; rfl
    · rw [Mut.bind_error (fillM_error w True hl), idx_error hl]; rfl

omit [Profile] in
theorem appendBitsM_eq (v : BV) (w : Word) (n : Nat) : appendBitsM w n v = done v (v.appendBits w n) := by
  unfold appendBitsM appendBits storeM assertR
  by_cases hn : n ≤ 64
  · simp only [hn, if_true, decide_true, ok_bind]
    rw [Mut.lift_ok_bind, Mut.get_bind]
    by_cases hm : v.len % 64 = 0
    · simp only [hm, if_true]; rfl
    · simp only [hm, if_false]
      by_cases hl : v.len / 64 < v.data.length
      · rw [Mut.bind_ok (fillM_ok w _ hl), idx_of_lt hl, ok_bind, setIdx_ok hl, ok_bind]
        by_cases hc : v.len % 64 + n > 64 <;> simp [hc, done, settle, growM, Except.map, Pure.pure, Except.pure]
      · rw [Mut.bind_error (fillM_error w _ hl), idx_error hl]; rfl
  · simp only [hn, if_false, decide_false]
    rfl

omit [Profile] in
theorem appendBitsUncheckedM_eq (v : BV) (w : Word) (n : Nat) :
    appendBitsUncheckedM w n v = done v (v.appendBitsUnchecked w n) := by
  unfold appendBitsUncheckedM appendBitsUnchecked storeUncheckedM fillUncheckedM
  rw [Mut.get_bind]
  by_cases hm : v.len % 64 = 0
  · simp only [hm, if_true]; rfl
  · simp only [hm, if_false]
    by_cases hl : v.len / 64 < v.data.length
    · rw [idx_of_lt hl, ok_bind, setIdx_ok hl, ok_bind]
      unfold pushIfM pushM
      by_cases hc : v.len % 64 + n > 64
      · rw [Mut.bind_ok (s' := ⟨v.data.set (v.len / 64) (v.data[v.len / 64] ||| w <<< (v.len % 64)) ++
            [w >>> (64 - v.len % 64)], v.len⟩) (a := ())]
        · simp [hc, done, settle, growM, Except.map, Pure.pure, Except.pure]
        · rw [Mut.bind_ok (limbM_ok hl _), if_pos hc]; rfl
      · rw [Mut.bind_ok (s' := ⟨v.data.set (v.len / 64) (v.data[v.len / 64] ||| w <<< (v.len % 64)), v.len⟩)
            (a := ())]
        · simp [hc, done, settle, growM, Except.map, Pure.pure, Except.pure]
        · rw [Mut.bind_ok (limbM_ok hl _), if_neg hc]; rfl
    · rw [idx_error hl, Mut.bind_error (Mut.bind_error (limbM_error hl _))]; rfl

omit [Profile] in
theorem dropLastM_eq (v : BV) (n : Nat) : dropLastM n v = (.ok (), v.dropLast n) := by
  unfold dropLastM dropLast
  rw [Mut.get_bind]
  by_cases hn : n > v.len
  · simp only [hn, if_true]; rfl
  · simp only [hn, if_false]; rfl

omit [Profile] in
theorem flipBitUncheckedM_eq (v : BV) (i : Nat) : flipBitUncheckedM i v = done v (v.flipBitUnchecked i) := by
  unfold flipBitUncheckedM flipBitUnchecked
  by_cases hl : i / 64 < v.data.length
  · rw [limbM_ok hl, idx_of_lt hl, ok_bind, setIdx_ok hl, ok_bind]; rfl
  · rw [limbM_error hl, idx_error hl]; rfl

omit [Profile] in
theorem flipBitM_eq (v : BV) (i : Nat) : flipBitM i v = done v (v.flipBit i) := by
  unfold flipBitM flipBit assertR
  rw [Mut.get_bind]
  by_cases hi : i < v.len
  · simp only [hi, decide_true, if_true, ok_bind]
    rw [Mut.lift_ok_bind, flipBitUncheckedM_eq]
  · simp only [hi, decide_false, if_false]; rfl

omit [Profile] in
theorem setUncheckedM_eq (v : BV) (i : Nat) (x : Word) : setUncheckedM i x v = done v (v.setUnchecked i x) := by
  unfold setUncheckedM setUnchecked
  by_cases hl : i / 64 < v.data.length
  · rw [limbM_ok hl, idx_of_lt hl, ok_bind, setIdx_ok hl, ok_bind]; rfl
  · rw [limbM_error hl, idx_error hl]; rfl

omit [Profile] in
theorem setM_eq (v : BV) (i : Nat) (x : Word) : setM i x v = doneOpt v (v.set i x) := by
  unfold setM set
  rw [Mut.get_bind]
  by_cases hi : i ≥ v.len
  · simp only [hi, if_true]; rfl
  · simp only [hi, if_false]
    cases hs : v.setUnchecked i x with
    | ok v' =>
      rw [Mut.bind_ok (s' := v') (a := ()) (by rw [setUncheckedM_eq, hs]; rfl)]; rfl
    | error e =>
      rw [Mut.bind_error (s' := v) (e := e) (by rw [setUncheckedM_eq, hs]; rfl)]; rfl

omit [Profile] in
theorem extendLoopM_eq (other : List Word) : ∀ n i (v v' : BV), extendLoop v other i n = .ok v' →
    extendLoopM other i n v = (.ok (), v') := by
  intro n
  induction n with
  | zero => intro i v v' h; cases h; rfl
  | succ n ih =>
    intro i v v' h
    unfold extendLoop at h
    obtain ⟨w, h1, h⟩ := bind_eq_ok.mp h
    obtain ⟨u, h2, h⟩ := bind_eq_ok.mp h
    unfold extendLoopM
    rw [h1, Mut.lift_ok_bind, Mut.bind_ok (s' := u) (a := ()) (by rw [appendBitsM_eq, h2]; rfl)]
    exact ih _ _ _ h

omit [Profile] in
theorem extendLastM_eq (other v : BV) : extendLastM other v = done v
    (if other.len % 64 > 0 then (idx other.data (other.len / 64) >>= fun w => v.appendBits w (other.len % 64))
      else pure v) := by
  unfold extendLastM
  by_cases hp : other.len % 64 > 0
  · simp only [hp, if_true]
    cases hw : idx other.data (other.len / 64) with
    | ok w => rw [Mut.lift_ok_bind, ok_bind, appendBitsM_eq]
    | error e => rfl
  · simp only [hp, if_false]; rfl

omit [Profile] in
/-- with enough limbs, the only panic is in `reserve` -/
theorem extendBitvec_enough {v o : BV} (h : v.len ≤ 64 * v.data.length) (ho : o.len ≤ 64 * o.data.length) :
    ∃ u v', extendLoop v o.data 0 (o.len / 64) = .ok u ∧
      (if o.len % 64 > 0 then (idx o.data (o.len / 64) >>= fun w => u.appendBits w (o.len % 64)) else pure u) = .ok v' ∧
      v'.len ≤ 64 * v'.data.length := by
  have one : ∀ (u : BV) (w : Word) (n : Nat), n ≤ 64 → u.len ≤ 64 * u.data.length →
      ∃ u', u.appendBits w n = .ok u' ∧ u'.len ≤ 64 * u'.data.length := by
    intro u w n hn hu
    unfold appendBits assertR
    simp only [hn, decide_true, if_true, ok_bind]
    by_cases hm : u.len % 64 = 0
    · simp only [hm, if_true]
      exact ⟨_, rfl, by simp; omega⟩
    · simp only [hm, if_false]
      have hl : u.len / 64 < u.data.length := by omega
      rw [idx_of_lt hl, ok_bind, setIdx_ok hl, ok_bind]
      by_cases hc : u.len % 64 + n > 64
      · simp only [hc, if_true]; exact ⟨_, rfl, by simp; omega⟩
      · simp only [hc, if_false]; exact ⟨_, rfl, by simp; omega⟩
  have loop : ∀ n i (u : BV), i + n ≤ o.data.length → u.len ≤ 64 * u.data.length →
      ∃ u', extendLoop u o.data i n = .ok u' ∧ u'.len ≤ 64 * u'.data.length := by
    intro n
    induction n with
    | zero => intro i u _ hu; exact ⟨u, rfl, hu⟩
    | succ n ih =>
      intro i u hi hu
      obtain ⟨u1, h1, h2⟩ := one u o.data[i] 64 (by omega) hu
      obtain ⟨u2, h3, h4⟩ := ih (i + 1) u1 (by omega) h2
      refine ⟨u2, ?_, h4⟩
      unfold extendLoop
      rw [idx_of_lt (by omega), ok_bind, h1, ok_bind, h3]
  obtain ⟨u, h1, h2⟩ := loop (o.len / 64) 0 v (by omega) h
  by_cases hp : o.len % 64 > 0
  · obtain ⟨v', h3, h4⟩ := one u (o.data[o.len / 64]'(by omega)) (o.len % 64) (by omega) h2
    refine ⟨u, v', h1, ?_, h4⟩
    rw [if_pos hp, idx_of_lt (by omega), ok_bind, h3]
  · refine ⟨u, u, h1, ?_, h2⟩
    rw [if_neg hp]; rfl

omit [Profile] in
theorem extendBitvecM_eq {v o : BV} (h : v.len ≤ 64 * v.data.length) (ho : o.len ≤ 64 * o.data.length) :
    extendBitvecM o v = done v (v.extendBitvec o) := by
  unfold extendBitvecM extendBitvec reserveR
  rw [Mut.get_bind]
  by_cases hr : v.data.length ≤ (v.len + o.len + 63) / 64
  · simp only [hr, if_true, ok_bind]
    obtain ⟨u, v', h1, h2, -⟩ := extendBitvec_enough h ho
    rw [Mut.lift_ok_bind, Mut.bind_ok (extendLoopM_eq _ _ _ _ _ h1), extendLastM_eq, h1, ok_bind, h2]
    rfl
  · simp only [hr, if_false]; rfl

omit [Profile] in
theorem extendM_eq : ∀ (os : List BV) (v v' : BV), v.len ≤ 64 * v.data.length →
    (∀ o ∈ os, o.len ≤ 64 * o.data.length) → v.extend os = .ok v' → extendM os v = (.ok (), v') := by
  intro os
  induction os with
  | nil => intro v v' _ _ h; cases h; rfl
  | cons o os ih =>
    intro v v' hv ho h
    unfold extend at h
    obtain ⟨u, h1, h⟩ := bind_eq_ok.mp h
    have hu : u.len ≤ 64 * u.data.length := by
      unfold extendBitvec reserveR at h1
      by_cases hr : v.data.length ≤ (v.len + o.len + 63) / 64
      · rw [if_pos hr, ok_bind] at h1
        obtain ⟨u1, v1, k1, k2, k3⟩ := extendBitvec_enough hv (ho o (by simp))
        simp only [k1, ok_bind] at h1
        have : (Except.ok v1 : R BV) = .ok u := k2.symm.trans h1
        cases this; exact k3
      · rw [if_neg hr] at h1; cases h1
    unfold extendM
    rw [Mut.bind_ok (s' := u) (a := ()) (by rw [extendBitvecM_eq hv (ho o (by simp)), h1]; rfl)]
    exact ih u v' hu (fun o' h' => ho o' (by simp [h'])) h

omit [Profile] in
theorem maskLoopM_ok (f : Word → Word → Word) (mask : List Word) : ∀ n i (v : BV) (d : List Word),
    maskLoop f mask i n v.data = .ok d →
      maskLoopM (fun a b => .ok (f a b)) mask i n v = (.ok (), ⟨d, v.len⟩) := by
  intro n
  induction n with
  | zero => intro i v d h; cases h; rfl
  | succ n ih =>
    intro i v d h
    unfold maskLoop at h
    obtain ⟨a, h1, h⟩ := bind_eq_ok.mp h
    obtain ⟨b, h2, h⟩ := bind_eq_ok.mp h
    obtain ⟨d', h3, h⟩ := bind_eq_ok.mp h
    have hl : i < v.data.length := by
      unfold setIdx at h3; split at h3
      · assumption
      · cases h3
    rw [setIdx_ok hl] at h3
    cases h3
    unfold maskLoopM
    rw [Mut.get_bind, h1, Mut.lift_ok_bind, h2, Mut.lift_ok_bind, Mut.lift_ok_bind,
      Mut.bind_ok (limbM_ok hl _)]
    exact ih _ _ _ h

omit [Profile] in
theorem applyMaskM_eq {f : Word → Word → Word} {v o : BV} (h : v.data.length ≤ o.data.length) :
    applyMaskM (fun a b => .ok (f a b)) o v = doneOpt v (applyMask f v o) := by
  unfold applyMaskM applyMask
  rw [Mut.get_bind]
  by_cases hl : v.len = o.len
  · simp only [hl, ne_eq, not_true, if_false]
    have : ∀ n i (d : List Word), i + n ≤ d.length → d.length ≤ o.data.length →
        ∃ d', maskLoop f o.data i n d = .ok d' := by
      intro n
      induction n with
      | zero => intro i d _ _; exact ⟨d, rfl⟩
      | succ n ih =>
        intro i d hi hd
        unfold maskLoop
        rw [idx_of_lt (by omega), ok_bind, idx_of_lt (by omega), ok_bind, setIdx_ok (by omega), ok_bind]
        exact ih _ _ (by simp; omega) (by simpa using hd)
    obtain ⟨d, hd⟩ := this v.data.length 0 v.data (by omega) h
    rw [Mut.bind_ok (maskLoopM_ok f o.data _ _ v d hd), hd, ok_bind, hl]
    rfl
  · simp only [hl, ne_eq, not_false_eq_true, if_true]; rfl

omit [Profile] in
/-- the limbs below `k` are combined, where `k` is the first limb at which the operation panics -/
theorem maskLoopM_spec (f : Word → Word → R Word) (mask : List Word) : ∀ n i (v : BV),
    i + n ≤ v.data.length → v.data.length ≤ mask.length → ∃ k v' r, maskLoopM f mask i n v = (r, v') ∧
      i ≤ k ∧ k ≤ i + n ∧ v'.len = v.len ∧ v'.data.length = v.data.length ∧
      (∀ j (h1 : j < v.data.length) (h2 : j < mask.length) (h3 : j < v'.data.length), i ≤ j → j < k →
        f v.data[j] mask[j] = .ok v'.data[j]) ∧
      (∀ j (h1 : j < v.data.length) (h3 : j < v'.data.length), j < i ∨ k ≤ j → v'.data[j] = v.data[j]) ∧
      (k = i + n ∧ r = .ok () ∨ ∃ (h1 : k < v.data.length) (h2 : k < mask.length) (e : Panic), k < i + n ∧
        f v.data[k] mask[k] = .error e ∧ r = .error e) := by
  intro n
  induction n with
  | zero =>
    intro i v _ _
    exact ⟨i, v, .ok (), rfl, by omega, by omega, rfl, rfl, fun j _ _ _ a b => absurd b (by omega), fun j _ _ _ => rfl,
      Or.inl ⟨rfl, rfl⟩⟩
  | succ n ih =>
    intro i v hi hm
    have hl : i < v.data.length := by omega
    have hl' : i < mask.length := by omega
    unfold maskLoopM
    rw [Mut.get_bind, idx_of_lt hl, Mut.lift_ok_bind, idx_of_lt hl', Mut.lift_ok_bind]
    cases hf : f v.data[i] mask[i] with
    | error e =>
      rw [Mut.lift_error_bind]
      exact ⟨i, v, _, rfl, by omega, by omega, rfl, rfl, fun j _ _ _ a b => absurd b (by omega), fun j _ _ _ => rfl,
        Or.inr ⟨hl, hl', e, by omega, hf, rfl⟩⟩
    | ok w =>
      rw [Mut.lift_ok_bind, Mut.bind_ok (limbM_ok hl _)]
      obtain ⟨k, v', r, g1, g2, g3, g4, g5, g6, g7, g8⟩ :=
        ih (i + 1) ⟨v.data.set i w, v.len⟩ (by simp; omega) (by simpa using hm)
      simp only [List.length_set] at g5 g6 g7 g8
      refine ⟨k, v', r, g1, by omega, by omega, g4, g5, ?_, ?_, ?_⟩
      · intro j h1 h2 h3 hj hk
        by_cases hji : j = i
        · subst hji
          rw [g7 j h1 h3 (by omega), hf, List.getElem_set_self]
        · have := g6 j h1 h2 h3 (by omega) hk
          rwa [List.getElem_set_ne (by omega)] at this
      · intro j h1 h3 hj
        rw [g7 j h1 h3 (by omega), List.getElem_set_ne (by omega)]
      · rcases g8 with ⟨a, b⟩ | ⟨h1, h2, e, a, b, c⟩
        · exact Or.inl ⟨by omega, b⟩
        · refine Or.inr ⟨h1, h2, e, by omega, ?_, c⟩
          rwa [List.getElem_set_ne (by omega)] at b

end BV

omit [Profile] in
/-- every call succeeds as the specification says, or panics and leaves the object as it is -/
theorem tolerated_of_sim {σ ι β γ : Type} {call : ι → Mut σ β} {step : γ → ι → β × γ} {rel : σ → γ → Prop}
    (h : ∀ s l c, rel s l → (∃ s', call c s = (.ok (step l c).1, s') ∧ rel s' (step l c).2) ∨
      ∃ e, call c s = (.error e, s)) :
    ∀ cs s l, rel s l → Tolerated step l cs (attempts call s cs).1 := by
  intro cs
  induction cs with
  | nil => intro s l _; trivial
  | cons c cs ih =>
    intro s l hr
    rcases h s l c hr with ⟨s', h1, h2⟩ | ⟨e, h1⟩
    · simp only [attempts, h1, Tolerated, true_and]
      exact ih s' _ h2
    · simp only [attempts, h1, Tolerated]
      exact ih s l hr

namespace GenIter
variable {α : Type}

omit [Profile] in
theorem nextM_ok {v : VecOps α} {it it' : GenIter} {o : Option α} (h : it.next v = .ok (it', o)) :
    nextM v it = (.ok o, it') := by
  unfold next at h
  unfold nextM
  rw [Mut.get_bind]
  by_cases he : it.isEmpty = true
  · rw [if_pos he] at h ⊢; cases h; rfl
  · rw [if_neg he] at h ⊢
    obtain ⟨p, h1, h⟩ := bind_eq_ok.mp h
    rw [h1, Mut.lift_ok_bind]
    cases p with
    | none => cases h; rfl
    | some x => cases h; rfl

omit [Profile] in
theorem nextBackM_ok {v : VecOps α} {it it' : GenIter} {o : Option α} (h : it.nextBack v = .ok (it', o)) :
    nextBackM v it = (.ok o, it') := by
  unfold nextBack at h
  unfold nextBackM
  rw [Mut.get_bind]
  by_cases he : someGt it.index it.back = true
  · rw [if_pos he] at h ⊢; cases h; rfl
  · rw [if_neg he] at h ⊢
    obtain ⟨b, h1, h⟩ := bind_eq_ok.mp h
    obtain ⟨p, h2, h⟩ := bind_eq_ok.mp h
    rw [h1, Mut.lift_ok_bind, h2, Mut.lift_ok_bind]
    cases p with
    | none => cases h; rfl
    | some x => cases h; rfl

theorem advanceByM_ok {it it' : GenIter} {n : Nat} (h : it.advanceBy n = .ok (.ok it')) :
    advanceByM n it = (.ok true, it') := by
  unfold advanceBy at h
  unfold advanceByM
  rw [Mut.get_bind]
  by_cases hn : n = 0
  · rw [if_pos hn] at h ⊢; cases h; rfl
  · rw [if_neg hn] at h ⊢
    obtain ⟨e, h1, h⟩ := bind_eq_ok.mp h
    obtain ⟨e1, h2, h⟩ := bind_eq_ok.mp h
    rw [h1, Mut.lift_ok_bind, h2, Mut.lift_ok_bind]
    by_cases hg : someGt e1 it.back = true
    · rw [if_pos hg] at h
      unfold advanceErr at h
      split at h
      · obtain ⟨x, _, h⟩ := bind_eq_ok.mp h; cases h
      · obtain ⟨x, _, h⟩ := bind_eq_ok.mp h
        try (obtain ⟨y, _, h⟩ := bind_eq_ok.mp h)
        cases h
    · rw [if_neg hg] at h ⊢; cases h; rfl

theorem advanceByM_err {it : GenIter} {n e : Nat} (h : it.advanceBy n = .ok (.error e)) :
    advanceByM n it = (.ok false, it) := by
  unfold advanceBy at h
  unfold advanceByM
  rw [Mut.get_bind]
  by_cases hn : n = 0
  · rw [if_pos hn] at h; cases h
  · rw [if_neg hn] at h ⊢
    obtain ⟨e, h1, h⟩ := bind_eq_ok.mp h
    obtain ⟨e1, h2, h⟩ := bind_eq_ok.mp h
    rw [h1, Mut.lift_ok_bind, h2, Mut.lift_ok_bind]
    by_cases hg : someGt e1 it.back = true
    · rw [if_pos hg] at h ⊢
      rw [h, Mut.lift_ok_bind]; rfl
    · rw [if_neg hg] at h; cases h

theorem advanceByM_overflow (hd : Profile.debug = true) {it : GenIter} {n : Nat} (hn : n ≠ 0)
    (hov : 2 ^ 64 ≤ it.index + n) : advanceByM n it = (.error .overflow, it) := by
  unfold advanceByM
  rw [Mut.get_bind, if_neg hn, addU_overflow hd hov, Mut.lift_error_bind]

theorem advanceBackByM_ok {it it' : GenIter} {n : Nat} (h : it.advanceBackBy n = .ok (.ok it')) :
    advanceBackByM n it = (.ok true, it') := by
  unfold advanceBackBy at h
  unfold advanceBackByM
  rw [Mut.get_bind]
  by_cases hn : n = 0
  · rw [if_pos hn] at h ⊢; cases h; rfl
  · rw [if_neg hn] at h ⊢
    by_cases he : it.isEmpty = true
    · rw [if_pos he] at h
      obtain ⟨x, _, h⟩ := bind_eq_ok.mp h; cases h
    · rw [if_neg he] at h ⊢
      obtain ⟨b, h1, h⟩ := bind_eq_ok.mp h
      obtain ⟨d, h2, h⟩ := bind_eq_ok.mp h
      rw [h1, Mut.lift_ok_bind, h2, Mut.lift_ok_bind]
      by_cases hc : d + 1 < n
      · rw [if_pos hc] at h
        obtain ⟨x, _, h⟩ := bind_eq_ok.mp h; cases h
      · rw [if_neg hc] at h ⊢; cases h; rfl

theorem advanceBackByM_err {it : GenIter} {n e : Nat} (h : it.advanceBackBy n = .ok (.error e)) :
    advanceBackByM n it = (.ok false, it) := by
  unfold advanceBackBy at h
  unfold advanceBackByM
  rw [Mut.get_bind]
  by_cases hn : n = 0
  · rw [if_pos hn] at h; cases h
  · rw [if_neg hn] at h ⊢
    by_cases he : it.isEmpty = true
    · rw [if_pos he] at h ⊢
      obtain ⟨x, h1, h⟩ := bind_eq_ok.mp h
      rw [h1, Mut.lift_ok_bind]; rfl
    · rw [if_neg he] at h ⊢
      obtain ⟨b, h1, h⟩ := bind_eq_ok.mp h
      obtain ⟨d, h2, h⟩ := bind_eq_ok.mp h
      rw [h1, Mut.lift_ok_bind, h2, Mut.lift_ok_bind]
      by_cases hc : d + 1 < n
      · rw [if_pos hc] at h ⊢
        obtain ⟨x, h3, h⟩ := bind_eq_ok.mp h
        rw [h3, Mut.lift_ok_bind]; rfl
      · rw [if_neg hc] at h; cases h

/-- in a debug build, `nth` succeeds with the right element, or returns `None`, or panics without any effect -/
theorem stepM_spec (hd : Profile.debug = true) {v : VecOps α} {l r : List α} {it : GenIter} (h : Repr v l)
    (hr : Rel l it r) (op : IterOp) :
    (∃ it', stepM v op it = (.ok (keepStep r op).1, it') ∧ Rel l it' (keepStep r op).2) ∨
      ∃ e, stepM v op it = (.error e, it) := by
  cases op with
  | next =>
    obtain ⟨it', g1, g2⟩ := next_rel h hr
    exact Or.inl ⟨it', by simp only [stepM]; rw [Mut.bind_ok (nextM_ok g1)]; rfl, g2⟩
  | nextBack =>
    obtain ⟨it', g1, g2⟩ := nextBack_rel h hr
    exact Or.inl ⟨it', by simp only [stepM]; rw [Mut.bind_ok (nextBackM_ok g1)]; rfl, g2⟩
  | len => exact Or.inl ⟨it, by simp only [stepM]; rw [Mut.get_bind, len_rel h hr]; rfl, hr⟩
  | nth n =>
    simp only [stepM, keepStep]
    by_cases hn : n ≤ r.length
    · rw [if_pos hn]
      obtain ⟨it1, g1, g2⟩ := (advanceBy_rel h.lt hr n).1 hn
      obtain ⟨it2, k1, k2⟩ := next_rel h g2
      refine Or.inl ⟨it2, ?_, by rwa [List.tail_drop] at k2⟩
      rw [Mut.bind_ok (s' := it2) (a := r[n]?)]
      · rfl
      · unfold nthM; rw [Mut.bind_ok (advanceByM_ok g1), if_pos rfl, nextM_ok k1, List.head?_drop]
    · rw [if_neg hn]
      by_cases hov : it.index + n < 2 ^ 64
      · obtain ⟨e, g1⟩ := (advanceBy_rel h.lt hr n).2 (by omega) hov
        refine Or.inl ⟨it, ?_, hr⟩
        rw [Mut.bind_ok (s' := it) (a := none)]
        · rfl
        · unfold nthM; rw [Mut.bind_ok (advanceByM_err g1)]; rfl
      · refine Or.inr ⟨.overflow, ?_⟩
        rw [Mut.bind_error (s' := it) (e := .overflow)]
        unfold nthM; rw [Mut.bind_error (advanceByM_overflow hd (by omega) (by omega))]
  | nthBack n =>
    simp only [stepM, keepStep]
    by_cases hn : n ≤ r.length
    · rw [if_pos hn]
      obtain ⟨it2, k1, k2⟩ := nthBack_rel h hr hn
      obtain ⟨it1, g1, g2⟩ := (advanceBackBy_rel hr n).1 hn
      have k3 : it1.nextBack v = .ok (it2, r.reverse[n]?) := by
        unfold nthBack at k1; rw [g1, ok_bind] at k1; exact k1
      refine Or.inl ⟨it2, ?_, k2⟩
      rw [Mut.bind_ok (s' := it2) (a := r.reverse[n]?)]
      · rfl
      · unfold nthBackM; rw [Mut.bind_ok (advanceBackByM_ok g1), if_pos rfl, nextBackM_ok k3]
    · rw [if_neg hn]
      obtain ⟨e, g1⟩ := (advanceBackBy_rel hr n).2 (by omega)
      refine Or.inl ⟨it, ?_, hr⟩
      rw [Mut.bind_ok (s' := it) (a := none)]
      · rfl
      · unfold nthBackM; rw [Mut.bind_ok (advanceBackByM_err g1)]; rfl

end GenIter

namespace SelIter
variable {rs : RsVec} {zero : Bool}

theorem useBlock_out {s r b : Nat} {hit : Bool} {t : Nat × Nat × Nat} (h : useBlock rs zero s r b hit = .ok t) :
    t.1 = s ∧ (t.2.2 = b ∨ t.2.2 = 0) := by
  unfold useBlock at h
  cases hit with
  | true =>
    simp only [if_true] at h
    obtain ⟨z, _, h⟩ := bind_eq_ok.mp h
    obtain ⟨r', _, h⟩ := bind_eq_ok.mp h
    cases h; exact ⟨rfl, Or.inl rfl⟩
  | false => cases h; exact ⟨rfl, Or.inr rfl⟩

theorem nextM_ok {it it' : SelIter} {o : Option Nat} (h : next rs zero it = .ok (it', o)) :
    nextM rs zero it = (.ok o, it') := by
  unfold next at h
  unfold nextM
  rw [Mut.get_bind]
  cases hb : it.nextRankBack with
  | none => rw [hb] at h; cases h; rfl
  | some back =>
    rw [hb] at h
    simp only at h ⊢
    by_cases hc : it.nextRank ≥ (if zero then rs.rank0 else rs.rank1) ∨ it.nextRank > back
    · rw [if_pos hc] at h ⊢; cases h; rfl
    · rw [if_neg hc] at h ⊢
      obtain ⟨t, h1, h⟩ := bind_eq_ok.mp h
      obtain ⟨q, h2, h⟩ := bind_eq_ok.mp h
      unfold fwdLocate at h1
      obtain ⟨e, h3, h1⟩ := bind_eq_ok.mp h1
      obtain ⟨hit, h4, h1⟩ := bind_eq_ok.mp h1
      rw [h3, Mut.lift_ok_bind, h4, Mut.lift_ok_bind]
      have hfind : fwdFindM rs zero it (prj zero e) hit it = (.ok t, { it with lastSuper := t.1 }) ∧
          (t.2.2 = it.lastBlock ∨ t.2.2 = 0) := by
        cases hit with
        | true =>
          simp only [if_true] at h1
          obtain ⟨z, h5, h1⟩ := bind_eq_ok.mp h1
          obtain ⟨r, h6, h1⟩ := bind_eq_ok.mp h1
          obtain ⟨bh, h7, h1⟩ := bind_eq_ok.mp h1
          obtain ⟨u1, u2⟩ := useBlock_out h1
          refine ⟨?_, u2⟩
          simp only [fwdFindM]
          rw [h5, Mut.lift_ok_bind, h6, Mut.lift_ok_bind, h7, Mut.lift_ok_bind, h1, u1]
          rfl
        | false =>
          simp only [Bool.false_eq_true, if_false] at h1
          unfold missSuper at h1
          obtain ⟨s, h5, h1⟩ := bind_eq_ok.mp h1
          obtain ⟨z, h6, h1⟩ := bind_eq_ok.mp h1
          obtain ⟨r, h7, h1⟩ := bind_eq_ok.mp h1
          cases h1
          refine ⟨?_, Or.inr rfl⟩
          simp only [fwdFindM]
          rw [h5, Mut.lift_ok_bind, Mut.modify_bind, h6, Mut.lift_ok_bind, h7, Mut.lift_ok_bind]
          rfl
      obtain ⟨hf1, hf2⟩ := hfind
      rw [Mut.bind_ok hf1]
      unfold finish searchBlockV at h2
      unfold blockM
      by_cases h0 : t.2.2 = 0
      · rw [if_pos h0] at h2 ⊢
        simp only [Bool.false_eq_true, if_false] at h2
        obtain ⟨b, h5, h2⟩ := bind_eq_ok.mp h2
        obtain ⟨z, h6, h2⟩ := bind_eq_ok.mp h2
        obtain ⟨r, h7, h2⟩ := bind_eq_ok.mp h2
        obtain ⟨p, h8, h2⟩ := bind_eq_ok.mp h2
        rw [Mut.bind_ok (s' := { it with lastSuper := t.1, lastBlock := b }) (a := (r, b))]
        · rw [Mut.modify_bind, h8, Mut.lift_ok_bind]
          cases h2; cases h
          simp only [hb]; rfl
        · rw [h5, Mut.lift_ok_bind, Mut.modify_bind, h6, Mut.lift_ok_bind, h7, Mut.lift_ok_bind]
          rfl
      · rw [if_neg h0] at h2 ⊢
        obtain ⟨p, h8, h2⟩ := bind_eq_ok.mp h2
        rw [Mut.pure_bind', Mut.modify_bind, h8, Mut.lift_ok_bind]
        have hlb : t.2.2 = it.lastBlock := by rcases hf2 with h | h; exact h; exact absurd h h0
        cases h2; cases h
        simp only [hlb, hb]
        rfl

theorem nextBackM_ok {it it' : SelIter} {o : Option Nat} (h : nextBack rs zero it = .ok (it', o)) :
    nextBackM rs zero it = (.ok o, it') := by
  unfold nextBack at h
  unfold nextBackM
  rw [Mut.get_bind]
  cases hb : it.nextRankBack with
  | none => rw [hb] at h; cases h; rfl
  | some rank =>
    rw [hb] at h
    simp only at h ⊢
    by_cases hc : rank < it.nextRank
    · rw [if_pos hc] at h ⊢; cases h; rfl
    · rw [if_neg hc] at h ⊢
      obtain ⟨t, h1, h⟩ := bind_eq_ok.mp h
      obtain ⟨q, h2, h⟩ := bind_eq_ok.mp h
      unfold bwdLocate at h1
      obtain ⟨e, h3, h1⟩ := bind_eq_ok.mp h1
      obtain ⟨z, h4, h1⟩ := bind_eq_ok.mp h1
      rw [h3, Mut.lift_ok_bind, h4, Mut.lift_ok_bind]
      have hfind : bwdFindM rs zero it rank (prj zero e) z it = (.ok t, { it with lastSuperBack := t.1 }) ∧
          (t.2.2 = it.lastBlockBack ∨ t.2.2 = 0) := by
        unfold bwdFindM
        by_cases hz : z < rank
        · rw [if_pos hz] at h1 ⊢
          obtain ⟨r, h6, h1⟩ := bind_eq_ok.mp h1
          obtain ⟨zb, h7, h1⟩ := bind_eq_ok.mp h1
          obtain ⟨u1, u2⟩ := useBlock_out h1
          refine ⟨?_, u2⟩
          rw [h6, Mut.lift_ok_bind, h7, Mut.lift_ok_bind, h1, u1]
          rfl
        · rw [if_neg hz] at h1 ⊢
          unfold missSuper at h1
          obtain ⟨s, h5, h1⟩ := bind_eq_ok.mp h1
          obtain ⟨z, h6, h1⟩ := bind_eq_ok.mp h1
          obtain ⟨r, h7, h1⟩ := bind_eq_ok.mp h1
          cases h1
          refine ⟨?_, Or.inr rfl⟩
          rw [h5, Mut.lift_ok_bind, Mut.modify_bind, h6, Mut.lift_ok_bind, h7, Mut.lift_ok_bind]
          rfl
      obtain ⟨hf1, hf2⟩ := hfind
      rw [Mut.bind_ok hf1]
      unfold finish searchBlockV at h2
      unfold blockM
      by_cases h0 : t.2.2 = 0
      · rw [if_pos h0] at h2 ⊢
        simp only [Bool.false_eq_true, if_false] at h2
        obtain ⟨b, h5, h2⟩ := bind_eq_ok.mp h2
        obtain ⟨z, h6, h2⟩ := bind_eq_ok.mp h2
        obtain ⟨r, h7, h2⟩ := bind_eq_ok.mp h2
        obtain ⟨p, h8, h2⟩ := bind_eq_ok.mp h2
        rw [Mut.bind_ok (s' := { it with lastSuperBack := t.1, lastBlockBack := b }) (a := (r, b))]
        · rw [Mut.modify_bind, h8, Mut.lift_ok_bind]
          cases h2; cases h
          simp only [hb]; rfl
        · rw [h5, Mut.lift_ok_bind, Mut.modify_bind, h6, Mut.lift_ok_bind, h7, Mut.lift_ok_bind]
          rfl
      · rw [if_neg h0] at h2 ⊢
        obtain ⟨p, h8, h2⟩ := bind_eq_ok.mp h2
        rw [Mut.pure_bind', Mut.modify_bind, h8, Mut.lift_ok_bind]
        have hlb : t.2.2 = it.lastBlockBack := by rcases hf2 with h | h; exact h; exact absurd h h0
        cases h2; cases h
        simp only [hlb, hb]
        rfl

omit [Profile] in
theorem advanceByM_eq (it : SelIter) (n : Nat) : advanceByM n it = (.ok (it.advanceBy n).2, (it.advanceBy n).1) := by
  unfold advanceByM advanceBy
  rw [Mut.get_bind]
  by_cases hn : it.len ≥ n
  · rw [if_pos hn, if_pos hn]; rfl
  · rw [if_neg hn, if_neg hn]; rfl

theorem advanceBackByM_eq (it : SelIter) (n : Nat) : advanceBackByM n it = settle it (it.advanceBackBy n) := by
  unfold advanceBackByM advanceBackBy
  rw [Mut.get_bind]
  by_cases hn : it.len ≥ n
  · rw [if_pos hn, if_pos hn]
    cases subBack it.nextRankBack n with
    | ok b => rw [Mut.lift_ok_bind]; rfl
    | error e => rfl
  · rw [if_neg hn, if_neg hn]
    cases subBack it.nextRankBack it.len with
    | ok b => rw [Mut.lift_ok_bind]; rfl
    | error e => rfl

theorem nthM_ok {it it' : SelIter} {n : Nat} {o : Option Nat} (h : nth rs zero it n = .ok (it', o)) :
    nthM rs zero n it = (.ok o, it') := by
  unfold nth at h
  unfold nthM
  rw [Mut.bind_ok (advanceByM_eq it n)]
  cases ha : it.advanceBy n with
  | mk it1 ok =>
    rw [ha] at h
    cases ok with
    | true => simp only [if_true]; exact nextM_ok h
    | false => cases h; rfl

theorem nthBackM_ok {it it' : SelIter} {n : Nat} {o : Option Nat} (h : nthBack rs zero it n = .ok (it', o)) :
    nthBackM rs zero n it = (.ok o, it') := by
  unfold nthBack at h
  unfold nthBackM
  obtain ⟨p, h1, h⟩ := bind_eq_ok.mp h
  obtain ⟨it1, ok⟩ := p
  rw [Mut.bind_ok (s' := it1) (a := ok) (by rw [advanceBackByM_eq, h1]; rfl)]
  cases ok with
  | true => simp only [if_true] at h ⊢; exact nextBackM_ok h
  | false => cases h; rfl

/-- in a debug build, every call succeeds as on a list, or panics without any effect -/
theorem stepM_spec (hd : Profile.debug = true) (h : rs.Inv) {it : SelIter} {l : List Nat} (hr : Rel rs zero it l)
    (op : IterOp) :
    (∃ it', stepM rs zero op it = (.ok (iterStep l op).1, it') ∧ Rel rs zero it' (iterStep l op).2) ∨
      ∃ e, stepM rs zero op it = (.error e, it) := by
  cases op with
  | next =>
    obtain ⟨it', g1, g2⟩ := next_rel h hr
    exact Or.inl ⟨it', by simp only [stepM]; rw [Mut.bind_ok (nextM_ok g1)]; rfl, g2⟩
  | nextBack =>
    obtain ⟨it', g1, g2⟩ := nextBack_rel h hr
    exact Or.inl ⟨it', by simp only [stepM]; rw [Mut.bind_ok (nextBackM_ok g1)]; rfl, g2⟩
  | len => exact Or.inl ⟨it, by simp only [stepM]; rw [Mut.get_bind, len_rel hr]; rfl, hr⟩
  | nth n =>
    obtain ⟨it', g1, g2⟩ := nth_rel h hr n
    exact Or.inl ⟨it', by simp only [stepM]; rw [Mut.bind_ok (nthM_ok g1)]; rfl, g2⟩
  | nthBack n =>
    by_cases hn : n < l.length ∨ it.nextRankBack = none ∨ 0 < it.nextRank
    · obtain ⟨it', g1, g2⟩ := nthBack_rel h hr n hn
      exact Or.inl ⟨it', by simp only [stepM]; rw [Mut.bind_ok (nthBackM_ok g1)]; rfl, g2⟩
    · have hlen := len_rel hr
      have hle := len_eq it
      have h0 : it.nextRank = 0 := by omega
      obtain ⟨x, hx⟩ : ∃ x, it.nextRankBack = some x := by
        cases hb : it.nextRankBack with
        | none => exact absurd (Or.inr (Or.inl hb)) hn
        | some x => exact ⟨x, rfl⟩
      have hu : it.upTo = x + 1 := by simp [upTo, hx]
      refine Or.inr ⟨.overflow, ?_⟩
      simp only [stepM]
      rw [Mut.bind_error (s' := it) (e := .overflow)]
      unfold nthBackM
      rw [Mut.bind_error (s' := it) (e := .overflow)]
      rw [advanceBackByM_eq]
      unfold advanceBackBy
      by_cases hn2 : it.len ≥ n
      · rw [if_pos hn2, hx]
        simp only [subBack]
        rw [subR_overflow hd (by omega)]; rfl
      · rw [if_neg hn2, hx]
        simp only [subBack]
        rw [subR_overflow hd (by omega)]; rfl

end SelIter

namespace EfIter
variable {ef : EF} {data : List Word} {ps : List Nat}

omit [Profile] in
theorem upM_ok {α : Type} {x : Mut SelIter α} {it : EfIter} {a : α} {u : SelIter} (h : x it.up = (.ok a, u)) :
    upM x it = (.ok a, ⟨it.pos, u⟩) := by
  unfold upM Mut.part; rw [h]

omit [Profile] in
theorem posM_of {α : Type} {x : Mut GenIter α} {it : EfIter} {r : R α} {p : GenIter} (h : x it.pos = (r, p)) :
    posM x it = (r, ⟨p, it.up⟩) := by
  unfold posM Mut.part; rw [h]

theorem nextM_ok {it it' : EfIter} {o : Option Word} (h : it.next ef = .ok (it', o)) :
    nextM ef it = (.ok o, it') := by
  unfold next at h
  obtain ⟨⟨u, p⟩, h1, h⟩ := bind_eq_ok.mp h
  unfold nextM
  rw [Mut.bind_ok (upM_ok (SelIter.nextM_ok h1))]
  cases p with
  | none => cases h; rfl
  | some upper =>
    simp only at h
    obtain ⟨c, h2, h⟩ := bind_eq_ok.mp h
    obtain ⟨x, h3, h⟩ := bind_eq_ok.mp h
    simp only [yieldM]
    rw [Mut.get_bind, h2, Mut.lift_ok_bind, Mut.bind_ok (posM_of (Mut.modify_apply)), h3, Mut.lift_ok_bind]
    cases h; rfl

theorem nextBackM_ok {it it' : EfIter} {o : Option Word} (h : it.nextBack ef = .ok (it', o)) :
    nextBackM ef it = (.ok o, it') := by
  unfold nextBack at h
  obtain ⟨⟨u, p⟩, h1, h⟩ := bind_eq_ok.mp h
  unfold nextBackM
  rw [Mut.bind_ok (upM_ok (SelIter.nextBackM_ok h1))]
  cases p with
  | none => cases h; rfl
  | some upper =>
    simp only at h
    obtain ⟨b, h0, h⟩ := bind_eq_ok.mp h
    obtain ⟨c, h2, h⟩ := bind_eq_ok.mp h
    obtain ⟨x, h3, h⟩ := bind_eq_ok.mp h
    simp only [yieldBackM]
    rw [Mut.get_bind, h0, Mut.lift_ok_bind, h2, Mut.lift_ok_bind, Mut.bind_ok (posM_of (Mut.modify_apply)), h3,
      Mut.lift_ok_bind]
    cases h; rfl

theorem advanceByM_ok {it it' : EfIter} {n : Nat} (h : it.advanceBy ef n = .ok (.ok it')) :
    advanceByM ef n it = (.ok true, it') := by
  unfold advanceBy at h
  obtain ⟨r, h1, h⟩ := bind_eq_ok.mp h
  cases r with
  | error e => cases h
  | ok pos =>
    simp only at h
    unfold advanceByM
    rw [Mut.bind_ok (posM_of (GenIter.advanceByM_ok h1))]
    by_cases hn : n > 0
    · rw [if_pos hn] at h
      rw [if_pos ⟨rfl, hn⟩]
      obtain ⟨⟨u, p⟩, h2, h⟩ := bind_eq_ok.mp h
      obtain ⟨x, h3, h⟩ := bind_eq_ok.mp h
      rw [Mut.bind_ok (upM_ok (it := ⟨pos, it.up⟩) (SelIter.nthM_ok h2)), h3, Mut.lift_ok_bind]
      cases h; rfl
    · rw [if_neg hn] at h
      rw [if_neg (by simp [hn])]
      cases h; rfl

theorem advanceByM_err {it : EfIter} {n e : Nat} (h : it.advanceBy ef n = .ok (.error e)) :
    advanceByM ef n it = (.ok false, it) := by
  unfold advanceBy at h
  obtain ⟨r, h1, h⟩ := bind_eq_ok.mp h
  cases r with
  | error e =>
    unfold advanceByM
    rw [Mut.bind_ok (posM_of (GenIter.advanceByM_err h1)), if_neg (by simp)]
    rfl
  | ok pos =>
    simp only at h
    by_cases hn : n > 0
    · rw [if_pos hn] at h
      obtain ⟨p, h2, h⟩ := bind_eq_ok.mp h
      obtain ⟨x, h3, h⟩ := bind_eq_ok.mp h
      cases h
    · rw [if_neg hn] at h; cases h

theorem advanceBackByM_ok {it it' : EfIter} {n : Nat} (h : it.advanceBackBy ef n = .ok (.ok it')) :
    advanceBackByM ef n it = (.ok true, it') := by
  unfold advanceBackBy at h
  obtain ⟨r, h1, h⟩ := bind_eq_ok.mp h
  cases r with
  | error e => cases h
  | ok pos =>
    simp only at h
    unfold advanceBackByM
    rw [Mut.bind_ok (posM_of (GenIter.advanceBackByM_ok h1))]
    by_cases hn : n > 0
    · rw [if_pos hn] at h
      rw [if_pos ⟨rfl, hn⟩]
      obtain ⟨⟨u, p⟩, h2, h⟩ := bind_eq_ok.mp h
      obtain ⟨x, h3, h⟩ := bind_eq_ok.mp h
      rw [Mut.bind_ok (upM_ok (it := ⟨pos, it.up⟩) (SelIter.nthBackM_ok h2)), h3, Mut.lift_ok_bind]
      cases h; rfl
    · rw [if_neg hn] at h
      rw [if_neg (by simp [hn])]
      cases h; rfl

theorem advanceBackByM_err {it : EfIter} {n e : Nat} (h : it.advanceBackBy ef n = .ok (.error e)) :
    advanceBackByM ef n it = (.ok false, it) := by
  unfold advanceBackBy at h
  obtain ⟨r, h1, h⟩ := bind_eq_ok.mp h
  cases r with
  | error e =>
    unfold advanceBackByM
    rw [Mut.bind_ok (posM_of (GenIter.advanceBackByM_err h1)), if_neg (by simp)]
    rfl
  | ok pos =>
    simp only at h
    by_cases hn : n > 0
    · rw [if_pos hn] at h
      obtain ⟨p, h2, h⟩ := bind_eq_ok.mp h
      obtain ⟨x, h3, h⟩ := bind_eq_ok.mp h
      cases h
    · rw [if_neg hn] at h; cases h

theorem stepM_spec (hd : Profile.debug = true) (h : ef.Holds data ps) {it : EfIter} {r : List Word}
    (hr : Rel ef data ps it r) (op : IterOp) :
    (∃ it', stepM ef op it = (.ok (keepStep r op).1, it') ∧ Rel ef data ps it' (keepStep r op).2) ∨
      ∃ e, stepM ef op it = (.error e, it) := by
  cases op with
  | next =>
    obtain ⟨it', g1, g2⟩ := next_rel h hr
    exact Or.inl ⟨it', by simp only [stepM]; rw [Mut.bind_ok (nextM_ok g1)]; rfl, g2⟩
  | nextBack =>
    obtain ⟨it', g1, g2⟩ := nextBack_rel h hr
    exact Or.inl ⟨it', by simp only [stepM]; rw [Mut.bind_ok (nextBackM_ok g1)]; rfl, g2⟩
  | len => exact Or.inl ⟨it, by simp only [stepM]; rw [Mut.get_bind, len_rel h hr]; rfl, hr⟩
  | nth n =>
    simp only [stepM, keepStep]
    by_cases hn : n ≤ r.length
    · rw [if_pos hn]
      obtain ⟨it1, g1, g2⟩ := (advanceBy_rel h hr n).1 hn
      obtain ⟨it2, k1, k2⟩ := next_rel h g2
      refine Or.inl ⟨it2, ?_, by rwa [List.tail_drop] at k2⟩
      rw [Mut.bind_ok (s' := it2) (a := r[n]?)]
      · rfl
      · unfold nthM; rw [Mut.bind_ok (advanceByM_ok g1), if_pos rfl, nextM_ok k1, List.head?_drop]
    · rw [if_neg hn]
      by_cases hov : it.pos.index + n < 2 ^ 64
      · obtain ⟨e, g1⟩ := (advanceBy_rel h hr n).2 (by omega) hov
        refine Or.inl ⟨it, ?_, hr⟩
        rw [Mut.bind_ok (s' := it) (a := none)]
        · rfl
        · unfold nthM; rw [Mut.bind_ok (advanceByM_err g1)]; rfl
      · refine Or.inr ⟨.overflow, ?_⟩
        rw [Mut.bind_error (s' := it) (e := .overflow)]
        unfold nthM
        rw [Mut.bind_error (s' := it) (e := .overflow)]
        unfold advanceByM
        rw [Mut.bind_error (posM_of (GenIter.advanceByM_overflow hd (by omega) (by omega)))]
  | nthBack n =>
    simp only [stepM, keepStep]
    by_cases hn : n ≤ r.length
    · rw [if_pos hn]
      obtain ⟨it2, k1, k2⟩ := nthBack_rel h hr hn
      obtain ⟨it1, g1, g2⟩ := (advanceBackBy_rel h hr n).1 hn
      have k3 : it1.nextBack ef = .ok (it2, r.reverse[n]?) := by
        unfold nthBack at k1; rw [g1, ok_bind] at k1; exact k1
      refine Or.inl ⟨it2, ?_, k2⟩
      rw [Mut.bind_ok (s' := it2) (a := r.reverse[n]?)]
      · rfl
      · unfold nthBackM; rw [Mut.bind_ok (advanceBackByM_ok g1), if_pos rfl, nextBackM_ok k3]
    · rw [if_neg hn]
      obtain ⟨e, g1⟩ := (advanceBackBy_rel h hr n).2 (by omega)
      refine Or.inl ⟨it, ?_, hr⟩
      rw [Mut.bind_ok (s' := it) (a := none)]
      · rfl
      · unfold nthBackM; rw [Mut.bind_ok (advanceBackByM_err g1)]; rfl

end EfIter
end Vers
