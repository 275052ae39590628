import Verif.Model.WaveletSteps
import Verif.Proofs.Base

/-! # The step counter of the queries of the wavelet matrix -/

namespace Vers

variable [Profile]

namespace Counted

omit [Profile]

theorem within_pure {α : Type} (a : α) (n : Nat) : Within (pure a) (pure a) n := ⟨rfl, Nat.zero_le _⟩

theorem within_free {α : Type} (x : R α) (n : Nat) : Within (free x) x n := ⟨rfl, Nat.zero_le _⟩

theorem within_tick {α : Type} (x : R α) : Within (tick x) x 1 := ⟨rfl, Nat.le_refl _⟩

theorem Within.bind {α β : Type} {x : Counted α} {y : R α} {f : α → Counted β} {g : α → R β} {a b n : Nat}
    (h : Within x y a) (hn : a + b ≤ n) (hf : ∀ v, Within (f v) (g v) b) : Within (x >>= f) (y >>= g) n := by
  obtain ⟨rfl, hx⟩ := h
  rcases hr : x.result with e | v
  · refine ⟨?_, ?_⟩
    · show (match x.result with
        | .ok a => (⟨x.steps + (f a).steps, (f a).result⟩ : Counted β)
        | .error e => ⟨x.steps, .error e⟩).result = _
      rw [hr]; rfl
    · show (match x.result with
        | .ok a => (⟨x.steps + (f a).steps, (f a).result⟩ : Counted β)
        | .error e => ⟨x.steps, .error e⟩).steps ≤ _
      rw [hr]; show x.steps ≤ n; omega
  · refine ⟨?_, ?_⟩
    · show (match x.result with
        | .ok a => (⟨x.steps + (f a).steps, (f a).result⟩ : Counted β)
        | .error e => ⟨x.steps, .error e⟩).result = _
      rw [hr]; exact (hf v).same
    · show (match x.result with
        | .ok a => (⟨x.steps + (f a).steps, (f a).result⟩ : Counted β)
        | .error e => ⟨x.steps, .error e⟩).steps ≤ _
      rw [hr]
      have := (hf v).le
      show x.steps + (f v).steps ≤ n
      omega

/-- after a step without cost -/
theorem free_bind {α β : Type} {y : R α} {f : α → Counted β} {g : α → R β} {n : Nat}
    (hf : ∀ v, Within (f v) (g v) n) : Within (free y >>= f) (y >>= g) n :=
  (within_free y 0).bind (by omega) hf

/-- after one step -/
theorem tick_bind {α β : Type} {y : R α} {f : α → Counted β} {g : α → R β} {n : Nat}
    (hf : ∀ v, Within (f v) (g v) n) : Within (tick y >>= f) (y >>= g) (n + 1) :=
  (within_tick y).bind (by omega) hf

theorem Within.map {α β : Type} {x : Counted α} {y : R α} {f : α → β} {n : Nat}
    (h : Within x y n) : Within (x >>= fun a => pure (f a)) (y >>= fun a => pure (f a)) n :=
  h.bind (Nat.le_refl (n + 0)) fun _ => within_pure _ _

theorem Within.ite {α : Type} {c : Prop} [Decidable c] {x x' : Counted α} {y y' : R α} {n : Nat}
    (h : Within x y n) (h' : Within x' y' n) : Within (if c then x else x') (if c then y else y') n := by
  by_cases hc : c
  · rw [if_pos hc, if_pos hc]; exact h
  · rw [if_neg hc, if_neg hc]; exact h'

theorem Within.mono {α : Type} {x : Counted α} {y : R α} {n m : Nat} (h : Within x y n) (hm : n ≤ m) :
    Within x y m := ⟨h.same, Nat.le_trans h.le hm⟩

end Counted

namespace WM
open Counted

theorem reconstruct_steps {T : Type} (f : Word → T → R T) : ∀ (l : List RsVec) (i : Nat) (t : T),
    Within (reconstructC f l i t) (reconstruct f l i t) (3 * l.length)
  | [], _, _ => within_pure _ _
  | rs :: l, i, t => by
    unfold reconstructC reconstruct
    exact tick_bind fun _ => tick_bind fun _ => tick_bind fun _ => reconstruct_steps f l _ _

theorem rangeLoop_steps (read : Nat → R Word) : ∀ (l : List RsVec) (level s e : Nat),
    Within (rangeLoopC read l level s e) (rangeLoop read l level s e) (3 * l.length)
  | [], _, _, _ => within_pure _ _
  | rs :: l, level, s, e => by
    unfold rangeLoopC rangeLoop
    exact tick_bind fun _ => tick_bind fun _ => tick_bind fun _ => rangeLoop_steps read l _ _ _

theorem rankGen_steps (m : WM) (read : Nat → R Word) (s e : Nat) :
    Within (m.rankGenC read s e) (m.rankGen read s e) (3 * m.bitsPer) :=
  (rangeLoop_steps read m.data 0 s e).bind (Nat.le_refl (_ + 0)) fun _ => within_free _ _

theorem selectDown_steps (read : Nat → R Word) : ∀ (l : List RsVec) (level s : Nat),
    Within (selectDownC read l level s) (selectDown read l level s) (2 * l.length)
  | [], _, _ => within_pure _ _
  | rs :: l, level, s => by
    unfold selectDownC selectDown
    exact tick_bind fun _ => tick_bind fun _ => selectDown_steps read l _ _

theorem selectUp_steps (read : Nat → R Word) : ∀ (l : List RsVec) (level p : Nat),
    Within (selectUpC read l level p) (selectUp read l level p) (2 * l.length)
  | [], _, _ => within_pure _ _
  | rs :: l, level, p => by
    unfold selectUpC selectUp
    exact (selectUp_steps read l _ p).bind (b := 2) (by simp only [List.length_cons]; omega) fun _ =>
      tick_bind fun _ => within_tick _

theorem selectGen_steps (m : WM) (read : Nat → R Word) (offset rank : Nat) :
    Within (m.selectGenC read offset rank) (m.selectGen read offset rank) (4 * m.bitsPer) :=
  (selectDown_steps read m.data 0 offset).bind (b := 2 * m.data.length) (by unfold bitsPer; omega) fun _ =>
    free_bind fun _ => selectUp_steps read m.data 0 _

theorem quantLoop_steps {T : Type} (w0 w1 : Nat → T → R T) : ∀ (l : List RsVec) (level s e k : Nat) (t : T),
    Within (quantLoopC w0 w1 l level s e k t) (quantLoop w0 w1 l level s e k t) (3 * l.length)
  | [], _, _, _, _, _ => within_pure _ _
  | rs :: l, level, s, e, k, t => by
    unfold quantLoopC quantLoop
    refine tick_bind fun _ => tick_bind fun _ => free_bind fun _ => Within.ite ?_ ?_
    · exact tick_bind fun _ => quantLoop_steps w0 w1 l _ _ _ _ _
    · exact tick_bind fun _ => free_bind fun _ => free_bind fun _ => quantLoop_steps w0 w1 l _ _ _ _ _

theorem partialQuantile_steps (m : WM) (s e k level : Nat) (t : BV) :
    Within (m.partialQuantileC s e k level t) (m.partialQuantile s e k level t) (3 * m.bitsPer) := by
  unfold partialQuantileC partialQuantile
  refine free_bind fun _ => free_bind fun _ => free_bind fun _ => (quantLoop_steps _ _ _ _ _ _ _ _).mono ?_
  rw [List.length_drop]; unfold bitsPer; omega

theorem partialQuantileU64_steps (m : WM) (s e k level : Nat) (t : Word) :
    Within (m.partialQuantileU64C s e k level t) (m.partialQuantileU64 s e k level t) (3 * m.bitsPer) := by
  unfold partialQuantileU64C partialQuantileU64
  refine free_bind fun _ => free_bind fun _ => free_bind fun _ => (quantLoop_steps _ _ _ _ _ _ _ _).mono ?_
  rw [List.length_drop]; unfold bitsPer; omega

theorem quantile_steps (m : WM) (s e k : Nat) : Within (m.quantileC s e k) (m.quantile s e k) (3 * m.bitsPer) :=
  Within.ite (within_pure _ _) (free_bind fun _ => Within.ite (within_pure _ _)
    (partialQuantile_steps m _ _ _ _ _).map)

theorem quantileU64_steps (m : WM) (s e k : Nat) :
    Within (m.quantileU64C s e k) (m.quantileU64 s e k) (3 * m.bitsPer) :=
  Within.ite (within_pure _ _) (free_bind fun _ => Within.ite (within_pure _ _)
    (partialQuantileU64_steps m _ _ _ _ _).map)

/-- the closures of a search and their versions with a counter -/
structure SearchC.Counts {T : Type} (c : SearchC T) (ops : Search T) (q : Nat) : Prop where
  read : c.read = ops.read
  write : c.write = ops.write
  quant : ∀ s e k l t, Within (c.quant s e k l t) (ops.quant s e k l t) q

section
variable {T : Type} {c : SearchC T} {ops : Search T} {q : Nat}

theorem smaller_steps (h : c.Counts ops q) (sv : Saved T) :
    Within (smallerC c sv) (smaller ops sv) (q + 1) := by
  unfold smallerC smaller
  rw [h.write]
  match sv.range with
  | none => exact within_pure _ _
  | some r => exact free_bind fun _ => free_bind fun _ => tick_bind fun _ => (h.quant _ _ _ _ _).map

omit [Profile] in
theorem larger_steps (h : c.Counts ops q) (sv : Saved T) :
    Within (largerC c sv) (larger ops sv) (q + 1) := by
  unfold largerC larger
  rw [h.write]
  match sv.range with
  | none => exact within_pure _ _
  | some r => exact free_bind fun _ => tick_bind fun _ => (h.quant _ _ _ _ _).map

theorem predLoop_steps (h : c.Counts ops q) : ∀ (l : List RsVec) (level s e : Nat) (t : T) (sv : Saved T),
    Within (predLoopC c l level s e t sv) (predLoop ops l level s e t sv) (4 * l.length + (q + 1))
  | [], _, _, _, _, _ => within_pure _ _
  | rs :: l, level, s, e, t, sv => by
    unfold predLoopC predLoop
    rw [h.read, h.write]
    refine ((tick_bind fun _ => tick_bind fun _ => tick_bind fun _ => free_bind fun _ => Within.ite
      (Within.ite ((smaller_steps h sv).mono (Nat.le_add_left _ (4 * l.length + 1))) ?_)
      (free_bind fun _ => Within.ite (free_bind fun _ =>
        ((h.quant _ _ _ _ _).map).mono (by omega)) ?_)).mono
      (n := 4 * l.length + 1 + (q + 1) + 1 + 1 + 1) (by simp only [List.length_cons]; omega))
    · exact (tick_bind fun _ => predLoop_steps h l _ _ _ _ _).mono (by omega)
    · exact (tick_bind fun _ => free_bind fun _ => free_bind fun _ => predLoop_steps h l _ _ _ _ _).mono (by omega)

theorem succLoop_steps (h : c.Counts ops q) : ∀ (l : List RsVec) (level s e : Nat) (t : T) (sv : Saved T),
    Within (succLoopC c l level s e t sv) (succLoop ops l level s e t sv) (4 * l.length + (q + 1))
  | [], _, _, _, _, _ => within_pure _ _
  | rs :: l, level, s, e, t, sv => by
    unfold succLoopC succLoop
    rw [h.read, h.write]
    refine ((tick_bind fun _ => tick_bind fun _ => tick_bind fun _ => free_bind fun _ => Within.ite
      (Within.ite (((h.quant _ _ _ _ _).map).mono (by omega)) ?_)
      (free_bind fun _ => Within.ite ((larger_steps h sv).mono (Nat.le_add_left _ (4 * l.length + 1))) ?_)).mono
      (n := 4 * l.length + 1 + (q + 1) + 1 + 1 + 1) (by simp only [List.length_cons]; omega))
    · exact (free_bind fun _ => free_bind fun _ => tick_bind fun _ => succLoop_steps h l _ _ _ _ _).mono (by omega)
    · exact (tick_bind fun _ => free_bind fun _ => free_bind fun _ => succLoop_steps h l _ _ _ _ _).mono (by omega)

end

theorem searchBV_counts (m : WM) (symbol : BV) : (m.searchBVC symbol).Counts (m.searchBV symbol) (3 * m.bitsPer) :=
  ⟨rfl, rfl, fun _ _ _ _ _ => partialQuantile_steps m _ _ _ _ _⟩

theorem searchU64_counts (m : WM) (symbol : Word) :
    (m.searchU64C symbol).Counts (m.searchU64 symbol) (3 * m.bitsPer) :=
  ⟨rfl, rfl, fun _ _ _ _ _ => partialQuantileU64_steps m _ _ _ _ _⟩

end WM
end Vers
