import Verif.Model.EliasFanoIter

/-!
# The adaptors `rev`, `skip`, `take` and `step_by` over the iterators of the library

The adaptors belong to `core`. They are modelled after their source there, because they decide which methods of the
library's iterators are called and with which arguments: `Skip` and `StepBy` call `nth`, their reversal and that
of `Take` call `nth_back` with an argument computed from `len`. (The tree uses `skip` and `take` itself, see
`Model/Bp.lean`.) The methods called are those of src/util/general_iter.rs, src/util/elias_fano_iter.rs and
src/bit_vec/fast_rs_vec/iter.rs.
-/

namespace Vers

/-- The methods of a double-ended iterator of exact size that the adaptors call; implemented at
src/util/general_iter.rs:78-153, src/util/elias_fano_iter.rs:66-172 and src/bit_vec/fast_rs_vec/iter.rs:361-429. -/
structure DeIter (σ α : Type) where
  next : σ → R (σ × Option α)
  nextBack : σ → R (σ × Option α)
  nth : σ → Nat → R (σ × Option α)
  nthBack : σ → Nat → R (σ × Option α)
  len : σ → Nat

section
variable [Profile]

/-- The iterators generated for `BitVec`, `RsVec` and `WaveletMatrix`, src/util/general_iter.rs:78-153. -/
def GenIter.de {α : Type} (v : VecOps α) : DeIter GenIter α where
  next it := it.next v
  nextBack it := it.nextBack v
  nth it n := it.nth v n
  nthBack it n := it.nthBack v n
  len it := it.len

/-- The iterators of the Elias-Fano vector, src/util/elias_fano_iter.rs:66-172. -/
def EfIter.de (ef : EF) : DeIter EfIter Word where
  next it := it.next ef
  nextBack it := it.nextBack ef
  nth it n := it.nth ef n
  nthBack it n := it.nthBack ef n
  len it := it.pos.len

/-- The select iterators, src/bit_vec/fast_rs_vec/iter.rs:361-429. -/
def SelIter.de (rs : RsVec) (zero : Bool) : DeIter SelIter Nat where
  next it := it.next rs zero
  nextBack it := it.nextBack rs zero
  nth it n := it.nth rs zero n
  nthBack it n := it.nthBack rs zero n
  len it := it.len

end

namespace DeIter
variable {σ α : Type}

/-- `rev()`: `Rev` exchanges the two ends; it calls e.g. src/bit_vec/fast_rs_vec/iter.rs:406-420. -/
def rev (d : DeIter σ α) : DeIter σ α where
  next := d.nextBack
  nextBack := d.next
  nth := d.nthBack
  nthBack := d.nth
  len := d.len

/-- `next` of `skip(n)`: the first call is `nth(n)` unless `n` is 0; it calls e.g. src/util/general_iter.rs:81-89 and
120-123. -/
def skipNext (d : DeIter σ α) (s : σ × Nat) : R ((σ × Nat) × Option α) :=
  if s.2 > 0 then do
    let p ← d.nth s.1 s.2
    pure ((p.1, 0), p.2)
  else do
    let p ← d.next s.1
    pure ((p.1, 0), p.2)

/-- `next_back` of `skip(n)`; it calls e.g. src/util/general_iter.rs:127-130 and 136-148. -/
def skipNextBack (d : DeIter σ α) (s : σ × Nat) : R ((σ × Nat) × Option α) :=
  if d.len s.1 - s.2 > 0 then do
    let p ← d.nextBack s.1
    pure ((p.1, s.2), p.2)
  else pure (s, none)

/-- `next` of `take(n)`; it calls e.g. src/util/general_iter.rs:81-89. -/
def takeNext (d : DeIter σ α) (s : σ × Nat) : R ((σ × Nat) × Option α) :=
  if s.2 ≠ 0 then do
    let p ← d.next s.1
    pure ((p.1, s.2 - 1), p.2)
  else pure (s, none)

/-- `next_back` of `take(n)`: `nth_back(len.saturating_sub(n))`; it calls e.g. src/util/general_iter.rs:127-130 and
150-153. -/
def takeNextBack (d : DeIter σ α) (s : σ × Nat) : R ((σ × Nat) × Option α) :=
  if s.2 = 0 then pure (s, none)
  else do
    let p ← d.nthBack s.1 (d.len s.1 - s.2)
    pure ((p.1, s.2 - 1), p.2)

/-- `next` of `step_by(k)`; the state is the iterator and whether the next call is the first one. It calls e.g.
src/util/general_iter.rs:120-123. -/
def stepNext (d : DeIter σ α) (k : Nat) (s : σ × Bool) : R ((σ × Bool) × Option α) := do
  let p ← d.nth s.1 (if s.2 then 0 else k - 1)
  pure ((p.1, false), p.2)

/-- `next_back_index` of `step_by(k)`; it calls e.g. src/util/general_iter.rs:127-130. -/
def stepBackIndex (d : DeIter σ α) (k : Nat) (s : σ × Bool) : Nat :=
  let rem := d.len s.1 % k
  if s.2 then if rem = 0 then k - 1 else rem - 1 else rem

/-- `next_back` of `step_by(k)`; it calls e.g. src/util/general_iter.rs:150-153. -/
def stepNextBack (d : DeIter σ α) (k : Nat) (s : σ × Bool) : R ((σ × Bool) × Option α) := do
  let p ← d.nthBack s.1 (d.stepBackIndex k s)
  pure ((p.1, s.2), p.2)

end DeIter
end Vers
