import Verif.Model.Bp
import Verif.Proofs.Base

/-! # Number of levels visited by a search in the min-max tree

A search with any budget that exceeds the height of the tree gives the result of the unbounded search. -/

set_option linter.unusedSimpArgs false

namespace Vers

variable [Profile]
namespace MMT
variable {t : MMT}

omit [Profile] in
theorem leftChild_some {i c : Nat} (h : t.leftChild i = some c) : c = 2 * i + 1 ∧ c < t.nodes.length := by
  unfold leftChild nonZero at h
  split at h
  · rw [if_neg (by omega)] at h; cases h; omega
  · cases h

omit [Profile] in
theorem rightChild_some {i c : Nat} (h : t.rightChild i = some c) : c = 2 * i + 2 ∧ c < t.nodes.length := by
  unfold rightChild nonZero at h
  split at h
  · rw [if_neg (by omega)] at h; cases h; omega
  · cases h

/-- `fuel` levels below `node` are enough to leave the tree -/
def Deep (t : MMT) (fuel node : Nat) : Prop := 1 ≤ fuel ∧ t.nodes.length ≤ (node + 1) * 2 ^ (fuel - 1)

omit [Profile] in
theorem Deep.child {fuel node c : Nat} (h : Deep t (fuel + 1) node) (hc : 2 * node + 1 ≤ c)
    (hn : c < t.nodes.length) : Deep t fuel c := by
  obtain ⟨h1, h2⟩ := h
  rw [Nat.add_sub_cancel] at h2
  cases fuel with
  | zero => rw [Nat.pow_zero, Nat.mul_one] at h2; omega
  | succ f =>
    refine ⟨by omega, ?_⟩
    rw [Nat.add_sub_cancel]
    refine Nat.le_trans h2 ?_
    rw [Nat.pow_succ, Nat.mul_comm (2 ^ f) 2, ← Nat.mul_assoc]
    exact Nat.mul_le_mul_right _ (by omega)

theorem fwdDown_fuel : ∀ (f g node : Nat) (rel : Int), Deep t f node → Deep t g node →
    t.fwdDown f node rel = t.fwdDown g node rel := by
  intro f
  induction f with
  | zero => intro g node rel h; exact absurd h.1 (by omega)
  | succ f ih =>
    intro g node rel hf hg
    cases g with
    | zero => exact absurd hg.1 (by omega)
    | succ g =>
      unfold fwdDown
      cases hl : t.leftChild node with
      | none => rfl
      | some l =>
        obtain ⟨e, hn⟩ := leftChild_some hl
        have E1 : ∀ rel, t.fwdDown f l rel = t.fwdDown g l rel := fun rel =>
          ih g l rel (hf.child (by omega) hn) (hg.child (by omega) hn)
        cases hr : t.rightChild node with
        | none => simp only [E1]
        | some r =>
          obtain ⟨e', hn'⟩ := rightChild_some hr
          have E2 : ∀ rel, t.fwdDown f r rel = t.fwdDown g r rel := fun rel =>
            ih g r rel (hf.child (by omega) hn') (hg.child (by omega) hn')
          simp only [E1, E2]

theorem bwdDown_fuel : ∀ (f g node : Nat) (rel : Int), Deep t f node → Deep t g node →
    t.bwdDown f node rel = t.bwdDown g node rel := by
  intro f
  induction f with
  | zero => intro g node rel h; exact absurd h.1 (by omega)
  | succ f ih =>
    intro g node rel hf hg
    cases g with
    | zero => exact absurd hg.1 (by omega)
    | succ g =>
      unfold bwdDown
      cases hr : t.rightChild node with
      | none => rfl
      | some r =>
        obtain ⟨e', hn'⟩ := rightChild_some hr
        have E2 : ∀ rel, t.bwdDown f r rel = t.bwdDown g r rel := fun rel =>
          ih g r rel (hf.child (by omega) hn') (hg.child (by omega) hn')
        cases hl : t.leftChild node with
        | none => simp only [E2]
        | some l =>
          obtain ⟨e, hn⟩ := leftChild_some hl
          have E1 : ∀ rel, t.bwdDown f l rel = t.bwdDown g l rel := fun rel =>
            ih g l rel (hf.child (by omega) hn) (hg.child (by omega) hn)
          simp only [E1, E2]

/-- a budget exceeding the height of the tree -/
def Enough (t : MMT) (b : Nat) : Prop := 1 ≤ b ∧ t.nodes.length ≤ 2 ^ (b - 1)

omit [Profile] in
theorem Enough.deep {b : Nat} (h : t.Enough b) (node : Nat) : Deep t b node :=
  ⟨h.1, Nat.le_trans h.2 (Nat.le_mul_of_pos_left _ (by omega))⟩

omit [Profile] in
theorem enough_default : t.Enough (t.nodes.length + 1) :=
  ⟨by omega, by rw [Nat.add_sub_cancel]; exact Nat.le_of_lt Nat.lt_two_pow_self⟩

omit [Profile] in
theorem parent_some {i p q : Nat} (h : t.parent i = some p) (hq : nonZero p = some q) :
    q + 1 ≤ (i + 1) / 2 ∧ 1 ≤ q := by
  unfold parent at h
  split at h
  · cases h
    unfold nonZero at hq
    split at hq
    · cases hq
    · cases hq; omega
  · cases h

omit [Profile] in
theorem unwrap_parent {α : Type} (i : Nat) {f g : Nat → R α}
    (h : ∀ p, t.parent i = some p → f p = g p) :
    (unwrapR (t.parent i) >>= f) = (unwrapR (t.parent i) >>= g) := by
  cases hp : t.parent i with
  | none => rfl
  | some p => exact h p hp

theorem fwdUp_fuel {d e : Nat} (hd : t.Enough d) (he : t.Enough e) : ∀ (f g node : Nat) (rel : Int),
    1 ≤ f → 1 ≤ g → node + 1 ≤ 2 ^ f → node + 1 ≤ 2 ^ g →
    t.fwdUp d f node rel = t.fwdUp e g node rel := by
  intro f
  induction f with
  | zero => intro g node rel h; omega
  | succ f ih =>
    intro g node rel _ hg0 hf hg
    cases g with
    | zero => omega
    | succ g =>
      have hup : ∀ p q rel, t.parent node = some p → nonZero p = some q →
          t.fwdUp d f q rel = t.fwdUp e g q rel := by
        intro p q rel hp hq
        obtain ⟨h1, h2⟩ := parent_some hp hq
        rw [Nat.pow_succ] at hf hg
        have f1 : 1 ≤ f := by
          refine Decidable.byContradiction fun h => ?_
          have : f = 0 := by omega
          subst this; omega
        have g1 : 1 ≤ g := by
          refine Decidable.byContradiction fun h => ?_
          have : g = 0 := by omega
          subst this; omega
        exact ih g q rel f1 g1 (by omega) (by omega)
      have hdn : ∀ r rel, t.fwdDown d r rel = t.fwdDown e r rel := fun r rel =>
        fwdDown_fuel d e r rel (hd.deep r) (he.deep r)
      unfold fwdUp
      refine congrArg (dassertR _ >>= ·) (funext fun _ => ?_)
      by_cases hl : !isLeftChild node
      · rw [if_pos hl, if_pos hl]
        refine unwrap_parent node fun p hp => ?_
        cases hq : nonZero p with
        | none => rfl
        | some q => exact hup p q rel hp hq
      · rw [if_neg hl, if_neg hl]
        cases t.rightSibling node with
        | none => rfl
        | some r =>
          simp only
          refine congrArg (t.inRange r rel >>= ·) (funext fun hit => ?_)
          rw [hdn]
          have key : (unwrapR (t.parent node) >>= fun p => match nonZero p with
              | some p => do
                let tot ← t.totalExcess r
                let rel' ← subI rel tot
                t.fwdUp d f p rel'
              | none => pure none) = (unwrapR (t.parent node) >>= fun p => match nonZero p with
              | some p => do
                let tot ← t.totalExcess r
                let rel' ← subI rel tot
                t.fwdUp e g p rel'
              | none => pure none) := by
            refine unwrap_parent node fun p hp => ?_
            cases hq : nonZero p with
            | none => rfl
            | some q =>
              have := fun rel' => hup p q rel' hp hq
              simp only [this]
          by_cases hh : hit
          · rw [if_pos hh, if_pos hh]
          · rw [if_neg hh, if_neg hh]; exact key

theorem bwdUp_fuel {d e : Nat} (hd : t.Enough d) (he : t.Enough e) : ∀ (f g node : Nat) (rel : Int),
    1 ≤ f → 1 ≤ g → node + 1 ≤ 2 ^ f → node + 1 ≤ 2 ^ g →
    t.bwdUp d f node rel = t.bwdUp e g node rel := by
  intro f
  induction f with
  | zero => intro g node rel h; omega
  | succ f ih =>
    intro g node rel _ hg0 hf hg
    cases g with
    | zero => omega
    | succ g =>
      have hup : ∀ p q rel, t.parent node = some p → nonZero p = some q →
          t.bwdUp d f q rel = t.bwdUp e g q rel := by
        intro p q rel hp hq
        obtain ⟨h1, h2⟩ := parent_some hp hq
        rw [Nat.pow_succ] at hf hg
        have f1 : 1 ≤ f := by
          refine Decidable.byContradiction fun h => ?_
          have : f = 0 := by omega
          subst this; omega
        have g1 : 1 ≤ g := by
          refine Decidable.byContradiction fun h => ?_
          have : g = 0 := by omega
          subst this; omega
        exact ih g q rel f1 g1 (by omega) (by omega)
      have hdn : ∀ r rel, t.bwdDown d r rel = t.bwdDown e r rel := fun r rel =>
        bwdDown_fuel d e r rel (hd.deep r) (he.deep r)
      unfold bwdUp
      refine congrArg (dassertR _ >>= ·) (funext fun _ => ?_)
      by_cases hl : isLeftChild node
      · rw [if_pos hl, if_pos hl]
        refine unwrap_parent node fun p hp => ?_
        cases hq : nonZero p with
        | none => rfl
        | some q => exact hup p q rel hp hq
      · rw [if_neg hl, if_neg hl]
        cases leftSibling node with
        | none => rfl
        | some r =>
          simp only
          refine congrArg (t.inRangeBwd r rel >>= ·) (funext fun hit => ?_)
          rw [hdn]
          have key : (unwrapR (t.parent node) >>= fun p => match nonZero p with
              | some p => do
                let tot ← t.totalExcess r
                let rel' ← addI rel tot
                t.bwdUp d f p rel'
              | none => pure none) = (unwrapR (t.parent node) >>= fun p => match nonZero p with
              | some p => do
                let tot ← t.totalExcess r
                let rel' ← addI rel tot
                t.bwdUp e g p rel'
              | none => pure none) := by
            refine unwrap_parent node fun p hp => ?_
            cases hq : nonZero p with
            | none => rfl
            | some q =>
              have := fun rel' => hup p q rel' hp hq
              simp only [this]
          by_cases hh : hit
          · rw [if_pos hh, if_pos hh]
          · rw [if_neg hh, if_neg hh]; exact key

omit [Profile] in
theorem Enough.pow {b : Nat} (h : t.Enough b) {i : Nat} (hi : i < t.nodes.length) : i + 1 ≤ 2 ^ b := by
  have := h.2
  have h1 := h.1
  have : 2 ^ (b - 1) ≤ 2 ^ b := Nat.pow_le_pow_right (by omega) (by omega)
  omega

theorem fwdSearch_budget {b : Nat} (h : t.Enough b) (start : Nat) (rel : Int) :
    t.fwdSearch start rel b = t.fwdSearch start rel := by
  unfold fwdSearch
  refine congrArg (t.firstLeaf >>= ·) (funext fun f => ?_)
  by_cases hs : start + f ≥ t.nodes.length
  · rw [if_pos hs, if_pos hs]
  · rw [if_neg hs, if_neg hs]
    cases hn : nonZero (start + f) with
    | none => rfl
    | some n =>
      have : n = start + f := by
        unfold nonZero at hn
        split at hn <;> cases hn; rfl
      have hd := enough_default (t := t)
      simp only [unwrapR, ok_bind, fwdUp_fuel h hd b (t.nodes.length + 1) n rel h.1 (by omega)
        (h.pow (by omega)) (hd.pow (by omega))]

theorem bwdSearch_budget {b : Nat} (h : t.Enough b) (start : Nat) (rel : Int) :
    t.bwdSearch start rel b = t.bwdSearch start rel := by
  unfold bwdSearch
  refine congrArg (t.firstLeaf >>= ·) (funext fun f => ?_)
  by_cases hs : start + f ≥ t.nodes.length
  · rw [if_pos hs, if_pos hs]
  · rw [if_neg hs, if_neg hs]
    cases hn : nonZero (start + f) with
    | none => rfl
    | some n =>
      have : n = start + f := by
        unfold nonZero at hn
        split at hn <;> cases hn; rfl
      have hd := enough_default (t := t)
      simp only [unwrapR, ok_bind, bwdUp_fuel h hd b (t.nodes.length + 1) n rel h.1 (by omega)
        (h.pow (by omega)) (hd.pow (by omega))]

end MMT

namespace BpTree
variable {t : BpTree} {b : Nat}
open MMT Lookup

theorem fwdSearch_budget (h : t.mmt.Enough b) (bs : Nat) (k : Variant) (i : Nat) (rel : Int) :
    t.fwdSearch bs k i rel b = t.fwdSearch bs k i rel := by
  unfold fwdSearch
  simp only [MMT.fwdSearch_budget h]

theorem bwdSearch_budget (h : t.mmt.Enough b) (bs : Nat) (k : Variant) (i : Nat) (rel : Int) :
    t.bwdSearch bs k i rel b = t.bwdSearch bs k i rel := by
  unfold bwdSearch
  simp only [MMT.bwdSearch_budget h]

theorem close_budget (h : t.mmt.Enough b) (bs : Nat) (k : Variant) (i : Nat) :
    t.close bs k i b = t.close bs k i := by
  unfold close; simp only [fwdSearch_budget h]

theorem opening_budget (h : t.mmt.Enough b) (bs : Nat) (k : Variant) (i : Nat) :
    t.opening bs k i b = t.opening bs k i := by
  unfold opening; simp only [bwdSearch_budget h]

theorem enclose_budget (h : t.mmt.Enough b) (bs : Nat) (k : Variant) (i : Nat) :
    t.enclose bs k i b = t.enclose bs k i := by
  unfold enclose; simp only [bwdSearch_budget h]

end BpTree
end Vers
