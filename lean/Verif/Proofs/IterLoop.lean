import Verif.Proofs.Base
import Verif.SpecLoop

/-! # Loops over an iterator that simulates a list -/

namespace Vers

open Spec

theorem forLoop_of_sim {σ α : Type} {next : σ → R (σ × Option α)} {rel : σ → List α → Prop}
    (h : ∀ s l, rel s l → ∃ s', next s = .ok (s', l.head?) ∧ rel s' l.tail) :
    ∀ (l : List α) (s : σ), rel s l → LoopsOver next s l := by
  intro l
  induction l with
  | nil =>
    intro s hr
    obtain ⟨s', h1, -⟩ := h s [] hr
    unfold LoopsOver forLoop
    rw [h1]; rfl
  | cons x l ih =>
    intro s hr
    obtain ⟨s', h1, h2⟩ := h s (x :: l) hr
    have := ih s' h2
    unfold LoopsOver at this ⊢
    rw [List.length_cons]
    unfold forLoop
    rw [h1, ok_bind]
    simp only [List.head?_cons]
    rw [this]; rfl

theorem forLoop_of_sim_back {σ α : Type} {next : σ → R (σ × Option α)} {rel : σ → List α → Prop}
    (h : ∀ s l, rel s l → ∃ s', next s = .ok (s', l.getLast?) ∧ rel s' l.dropLast) (l : List α) (s : σ)
    (hr : rel s l) : LoopsOver next s l.reverse := by
  refine forLoop_of_sim (rel := fun s l => rel s l.reverse) ?_ l.reverse s (by simpa using hr)
  intro s l hr
  obtain ⟨s', h1, h2⟩ := h s _ hr
  refine ⟨s', ?_, ?_⟩
  · rw [h1, List.getLast?_reverse]
  · rwa [List.dropLast_reverse] at h2

theorem yields_step {σ α : Type} {next : σ → R (σ × Option α)} {s : σ} {l : List α} (h : Yields next s l) :
    ∃ s', next s = .ok (s', l.head?) ∧ Yields next s' l.tail := by
  cases hn : next s with
  | error e =>
    have := h 1
    unfold runNext at this
    rw [hn] at this
    cases this
  | ok p =>
    have key : ∀ k, ∃ r, runNext next k p.1 = .ok r ∧ p.2 :: r = (List.range (k + 1)).map (fun i => l[i]?) := by
      intro k
      have := h (k + 1)
      unfold runNext at this
      rw [hn, ok_bind] at this
      cases hr : runNext next k p.1 with
      | error e => rw [hr] at this; cases this
      | ok r =>
        rw [hr] at this
        exact ⟨r, rfl, Except.ok.inj this⟩
    refine ⟨p.1, ?_, fun k => ?_⟩
    · obtain ⟨r, -, h2⟩ := key 0
      simp only [List.range_succ_eq_map, List.map_cons, List.cons.injEq] at h2
      rw [List.head?_eq_getElem?, ← h2.1]
    · obtain ⟨r, h1, h2⟩ := key k
      simp only [List.range_succ_eq_map, List.map_cons, List.cons.injEq, List.map_map] at h2
      rw [h1, h2.2]
      congr 1
      apply List.map_congr_left
      intro i _
      simp [List.getElem?_tail]

/-- A loop over an iterator that yields the elements of a list sees them. -/
theorem loopsOver_of_yields {σ α : Type} {next : σ → R (σ × Option α)} {s : σ} {l : List α} (h : Yields next s l) :
    LoopsOver next s l :=
  forLoop_of_sim (rel := fun s l => Yields next s l) (fun _ _ h => yields_step h) l s h

end Vers
