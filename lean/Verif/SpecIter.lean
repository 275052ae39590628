import Verif.Model.Prelude

/-!
# Specification of double-ended iterators

A double-ended iterator over the elements `l` is a list from which elements are removed at both ends.
-/

namespace Vers.Spec

/-- The calls of `Iterator`, `DoubleEndedIterator` and `ExactSizeIterator` that the library implements. -/
inductive IterOp where
  | next
  | nextBack
  | nth (n : Nat)
  | nthBack (n : Nat)
  | len
deriving DecidableEq, Repr

/-- What a call returns. -/
inductive IterOut (α : Type) where
  | item (o : Option α)
  | num (n : Nat)
deriving DecidableEq, Repr

/-- One call on an iterator whose remaining elements are `l`: what it returns, and what remains. -/
def iterStep {α : Type} (l : List α) : IterOp → IterOut α × List α
  | .next => (.item l.head?, l.tail)
  | .nextBack => (.item l.getLast?, l.dropLast)
  | .nth n => (.item l[n]?, l.drop (n + 1))
  | .nthBack n => (.item l.reverse[n]?, l.take (l.length - (n + 1)))
  | .len => (.num l.length, l)

/-- A sequence of calls. -/
def iterRun {α : Type} : List α → List IterOp → List (IterOut α)
  | _, [] => []
  | l, op :: ops => (iterStep l op).1 :: iterRun (iterStep l op).2 ops

/-- What remains after a sequence of calls. -/
def iterRest {α : Type} : List α → List IterOp → List α
  | l, [] => l
  | l, op :: ops => iterRest (iterStep l op).2 ops

/-- Every call of the sequence meets the condition `ok` on the elements remaining at that time. -/
def CallsOk {α : Type} (ok : List α → IterOp → Prop) : List α → List IterOp → Prop
  | _, [] => True
  | l, op :: ops => ok l op ∧ CallsOk ok (iterStep l op).2 ops

/-- `nth`/`nth_back` are only called with an argument not above the number of remaining elements. -/
def NthInRange {α : Type} (l : List α) : IterOp → Prop
  | .nth n => n ≤ l.length
  | .nthBack n => n ≤ l.length
  | _ => True

/-- Execute a sequence of calls on an implementation with states `σ`, collecting the results. -/
def execute {σ α : Type} (step : σ → IterOp → R (σ × IterOut α)) : σ → List IterOp → R (List (IterOut α))
  | _, [] => pure []
  | s, op :: ops => do
    let p ← step s op
    let rest ← execute step p.1 ops
    pure (p.2 :: rest)

/-- The state of the implementation after a sequence of calls. -/
def reach {σ α : Type} (step : σ → IterOp → R (σ × IterOut α)) : σ → List IterOp → R σ
  | s, [] => pure s
  | s, op :: ops => do
    let p ← step s op
    reach step p.1 ops

/-- The results of `k` calls of `next` on an implementation with states `σ`. -/
def runNext {σ α : Type} (next : σ → R (σ × Option α)) : Nat → σ → R (List (Option α))
  | 0, _ => pure []
  | k + 1, s => do
    let p ← next s
    let rest ← runNext next k p.1
    pure (p.2 :: rest)

/-- The iterator yields exactly the elements of `l`, in this order, and then `None` forever. -/
def Yields {σ α : Type} (next : σ → R (σ × Option α)) (s : σ) (l : List α) : Prop :=
  ∀ k, runNext next k s = .ok ((List.range k).map (fun i => l[i]?))

/-- `nth n` is `n` calls of `next` whose results are dropped, and another one. -/
theorem nth_eq_next {α : Type} (l : List α) (n : Nat) :
    iterStep l (.nth n) =
      iterStep (iterRest l (List.replicate n .next)) .next := by
  induction n generalizing l with
  | zero => cases l <;> simp [iterStep, iterRest]
  | succ n ih =>
    rw [List.replicate_succ, iterRest, ← ih]
    cases l <;> simp [iterStep]

/-- `nthBack n` is `n` calls of `nextBack` whose results are dropped, and another one. -/
theorem nthBack_eq_nextBack {α : Type} (l : List α) (n : Nat) :
    iterStep l (.nthBack n) =
      iterStep (iterRest l (List.replicate n .nextBack)) .nextBack := by
  induction n generalizing l with
  | zero => simp [iterStep, iterRest, List.dropLast_eq_take, ← List.head?_eq_getElem?, List.head?_reverse]
  | succ n ih =>
    rw [List.replicate_succ, iterRest, ← ih]
    simp only [iterStep, List.length_dropLast]
    rw [List.dropLast_eq_take, List.take_take]
    congr 1
    · congr 1
      rw [← List.dropLast_eq_take, ← List.tail_reverse, List.getElem?_tail]
    · congr 1; omega

end Vers.Spec
