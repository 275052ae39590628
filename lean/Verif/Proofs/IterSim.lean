import Verif.Proofs.Base
import Verif.SpecIter

/-! # Simulation of a list by an iterator implementation -/

namespace Vers

variable [Profile]
open Spec

omit [Profile] in
theorem execute_of_sim {σ α : Type} {step : σ → IterOp → R (σ × IterOut α)} {rel : σ → List α → Prop}
    {ok : List α → IterOp → Prop}
    (h : ∀ s l op, rel s l → ok l op →
      ∃ s', step s op = .ok (s', (iterStep l op).1) ∧ rel s' (iterStep l op).2) :
    ∀ (ops : List IterOp) (s : σ) (l : List α), rel s l → CallsOk ok l ops →
      execute step s ops = .ok (iterRun l ops) := by
  intro ops
  induction ops with
  | nil => intro s l _ _; rfl
  | cons op ops ih =>
    intro s l hr ⟨ho, hrest⟩
    obtain ⟨s', h1, h2⟩ := h s l op hr ho
    unfold execute iterRun
    rw [h1, ok_bind, ih s' _ h2 hrest]
    rfl

omit [Profile] in
theorem reach_of_sim {σ α : Type} {step : σ → IterOp → R (σ × IterOut α)} {rel : σ → List α → Prop}
    {ok : List α → IterOp → Prop}
    (h : ∀ s l op, rel s l → ok l op →
      ∃ s', step s op = .ok (s', (iterStep l op).1) ∧ rel s' (iterStep l op).2) :
    ∀ (ops : List IterOp) (s : σ) (l : List α), rel s l → CallsOk ok l ops →
      ∃ s', reach step s ops = .ok s' ∧ rel s' (iterRest l ops) := by
  intro ops
  induction ops with
  | nil => intro s l hr _; exact ⟨s, rfl, hr⟩
  | cons op ops ih =>
    intro s l hr ⟨ho, hrest⟩
    obtain ⟨s', h1, h2⟩ := h s l op hr ho
    unfold reach
    rw [h1, ok_bind]
    exact ih s' _ h2 hrest

omit [Profile] in
theorem callsOk_of_forall {α : Type} {ok : List α → IterOp → Prop} {p : IterOp → Prop}
    (h : ∀ l op, p op → ok l op) :
    ∀ (ops : List IterOp) (l : List α), (∀ op, op ∈ ops → p op) → CallsOk ok l ops := by
  intro ops
  induction ops with
  | nil => intro l _; trivial
  | cons op ops ih =>
    intro l hp
    exact ⟨h l op (hp op (by simp)), ih _ (fun op' h' => hp op' (by simp [h']))⟩

end Vers
