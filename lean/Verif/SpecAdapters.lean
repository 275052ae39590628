import Verif.SpecLoop
import Verif.Model.Adapters

/-!
# Specification of the adaptors `skip`, `take` and `step_by`

What a loop over an adapted iterator sees, from the front and, with `rev()`, from the back.
-/

namespace Vers.Spec

/-- The elements of the list at the positions 0, `k`, `2k`, .... -/
def every {α : Type} (k : Nat) (l : List α) : List α :=
  (l.zipIdx.filter (fun p => p.2 % k = 0)).map (·.1)

example : every 3 [10, 11, 12, 13, 14, 15, 16] = [10, 13, 16] := by decide

/-- The answers of an iterator to the calls `ops`: `next` for `true`, `next_back` for `false`. -/
def calls {σ α : Type} (next nextBack : σ → R (σ × Option α)) : List Bool → σ → R (List (Option α))
  | [], _ => pure []
  | front :: ops, s => do
    let p ← if front then next s else nextBack s
    let rest ← calls next nextBack ops p.1
    pure (p.2 :: rest)

/-- The answers of a list to the same calls. -/
def listCalls {α : Type} : List Bool → List α → List (Option α)
  | [], _ => []
  | true :: ops, l => l.head? :: listCalls ops l.tail
  | false :: ops, l => l.getLast? :: listCalls ops l.dropLast

example : listCalls [true, false, false, true] [1, 2, 3] = [some 1, some 3, some 2, none] := by decide

/-- The iterator `s` with the methods `next` and `nextBack` has the elements `l`: a loop sees them in their order, a loop over
`rev()` in the reverse order, and calls of the two methods in any order are answered as by the list, up to and including
the first `None`. -/
structure YieldsBoth {σ α : Type} (next nextBack : σ → R (σ × Option α)) (s : σ) (l : List α) : Prop where
  loop : LoopsOver next s l
  loopRev : LoopsOver nextBack s l.reverse
  mixed : ∀ ops, ops.length ≤ l.length + 1 → calls next nextBack ops s = .ok (listCalls ops l)

/-- `it.skip(n)` has all but the first `n` elements `l` of the iterator. -/
def Skips {σ α : Type} (d : DeIter σ α) (s : σ) (l : List α) (n : Nat) : Prop :=
  YieldsBoth d.skipNext d.skipNextBack (s, n) (l.drop n)

/-- `it.take(n)` has the first `n` elements. -/
def Takes {σ α : Type} (d : DeIter σ α) (s : σ) (l : List α) (n : Nat) : Prop :=
  YieldsBoth d.takeNext d.takeNextBack (s, n) (l.take n)

/-- `it.step_by(k)` has every `k`-th element. -/
def Steps {σ α : Type} (d : DeIter σ α) (s : σ) (l : List α) (k : Nat) : Prop :=
  YieldsBoth (d.stepNext k) (d.stepNextBack k) (s, true) (every k l)

end Vers.Spec
