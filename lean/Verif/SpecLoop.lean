import Verif.SpecIter

/-!
# Specification of loops over iterators

How the users of the library consume an iterator: a `for` loop or `collect()`, from the front, and the same from the back
with `rev()`. This is not code of the library but the meaning of Rust's loops.
-/

namespace Vers.Spec

/-- The elements seen by a loop that calls `next` until it returns `None`, at most `fuel` times. -/
def forLoop {σ α : Type} (next : σ → R (σ × Option α)) : Nat → σ → R (List α)
  | 0, _ => .error .fuel
  | fuel + 1, s => do
    let p ← next s
    match p.2 with
    | none => pure []
    | some x => do
      let rest ← forLoop next fuel p.1
      pure (x :: rest)

/-- A loop over the iterator `s` ends after the elements of `l`: it makes one call for each of them and one more. -/
def LoopsOver {σ α : Type} (next : σ → R (σ × Option α)) (s : σ) (l : List α) : Prop :=
  forLoop next (l.length + 1) s = .ok l

/-- `size_hint` and `count` are exact. -/
def ExactSize {α : Type} (hint : Nat × Option Nat) (count : Nat) (l : List α) : Prop :=
  hint = (l.length, some l.length) ∧ count = l.length

end Vers.Spec
