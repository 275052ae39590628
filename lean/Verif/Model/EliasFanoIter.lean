import Verif.Model.EliasFano

/-!
# Model of src/util/elias_fano_iter.rs (iterators of the Elias-Fano vector)

The owning and the borrowing iterator are generated by the same macro; the model is the mutable state of
the iterator next to the immutable vector. The fields `index` and `back_index` are handled in `advance_by`
and `advance_back_by` by the same code as in src/util/general_iter.rs and are modelled by the same
definitions (`GenIter`).
-/

namespace Vers

variable [Profile]

/-- The mutable fields, src/util/elias_fano_iter.rs:182-191 and 230-239: `index`, `back_index` and `upper_iter`. -/
structure EfIter where
  pos : GenIter
  up : SelIter

namespace EfIter

/-- `new`, src/util/elias_fano_iter.rs:195-216 and 243-264. -/
def new (ef : EF) : R EfIter := do
  let up ← SelIter.new ef.upper false
  if ef.len = 0 then pure ⟨⟨0, none⟩, up⟩ else pure ⟨⟨0, some (ef.len - 1)⟩, up⟩

/-- `upper - index - 1`, the lower half at `index` and their combination,
src/util/elias_fano_iter.rs:71-76, 103-107 and 154-158. -/
def combine (ef : EF) (upper index : Nat) : R Word := do
  let a ← subR upper index
  let u ← subR a 1
  let lower ← ef.lowAt index
  pure ((BitVec.ofNat 64 u <<< ef.lowerLen) ||| lower)

/-- `advance_by`, src/util/elias_fano_iter.rs:10-29. -/
def advanceBy (ef : EF) (it : EfIter) (n : Nat) : R (Except Nat EfIter) := do
  let r ← it.pos.advanceBy n
  match r with
  | .error e => pure (.error e)
  | .ok pos =>
    if n > 0 then do
      let p ← it.up.nth ef.upper false (n - 1)
      let _ ← unwrapR p.2
      pure (.ok ⟨pos, p.1⟩)
    else pure (.ok ⟨pos, it.up⟩)

/-- `advance_back_by`, src/util/elias_fano_iter.rs:37-58. -/
def advanceBackBy (ef : EF) (it : EfIter) (n : Nat) : R (Except Nat EfIter) := do
  let r ← it.pos.advanceBackBy n
  match r with
  | .error e => pure (.error e)
  | .ok pos =>
    if n > 0 then do
      let p ← it.up.nthBack ef.upper false (n - 1)
      let _ ← unwrapR p.2
      pure (.ok ⟨pos, p.1⟩)
    else pure (.ok ⟨pos, it.up⟩)

/-- `next`, src/util/elias_fano_iter.rs:69-80. -/
def next (ef : EF) (it : EfIter) : R (EfIter × Option Word) := do
  let p ← it.up.next ef.upper false
  match p.2 with
  | some upper => do
    let c ← combine ef upper it.pos.index
    let x ← addW c ef.zero
    pure (⟨{ it.pos with index := it.pos.index + 1 }, p.1⟩, some x)
  | none => pure (⟨it.pos, p.1⟩, none)

/-- `next_back`, src/util/elias_fano_iter.rs:151-167. -/
def nextBack (ef : EF) (it : EfIter) : R (EfIter × Option Word) := do
  let p ← it.up.nextBack ef.upper false
  match p.2 with
  | some upper => do
    let b ← unwrapR it.pos.back
    let c ← combine ef upper b
    let x ← addW c ef.zero
    pure (⟨{ it.pos with back := if b = 0 then none else some (b - 1) }, p.1⟩, some x)
  | none => pure (⟨it.pos, p.1⟩, none)

/-- `nth`, src/util/elias_fano_iter.rs:115-118. -/
def nth (ef : EF) (it : EfIter) (n : Nat) : R (EfIter × Option Word) := do
  let r ← it.advanceBy ef n
  match r with
  | .ok it' => it'.next ef
  | .error _ => pure (it, none)

/-- `nth_back`, src/util/elias_fano_iter.rs:169-172. -/
def nthBack (ef : EF) (it : EfIter) (n : Nat) : R (EfIter × Option Word) := do
  let r ← it.advanceBackBy ef n
  match r with
  | .ok it' => it'.nextBack ef
  | .error _ => pure (it, none)

/-- `last`, src/util/elias_fano_iter.rs:98-111; also `max`, 132-138. -/
def last (ef : EF) (it : EfIter) : R (Option Word) :=
  if it.pos.isEmpty then pure none
  else do
    let o ← it.up.last ef.upper false
    let upper ← unwrapR o
    let b ← unwrapR it.pos.back
    let c ← combine ef upper b
    pure (some c)

/-- `min`, src/util/elias_fano_iter.rs:122-128. -/
def minItem (ef : EF) (it : EfIter) : R (Option Word) := do
  let p ← it.next ef
  pure p.2

/-- One call; `len` (also `count` and `size_hint`), src/util/elias_fano_iter.rs:142-145, is the same
computation as in general_iter.rs. -/
def step (ef : EF) (it : EfIter) : Spec.IterOp → R (EfIter × Spec.IterOut Word)
  | .next => do let p ← it.next ef; pure (p.1, .item p.2)
  | .nextBack => do let p ← it.nextBack ef; pure (p.1, .item p.2)
  | .nth n => do let p ← it.nth ef n; pure (p.1, .item p.2)
  | .nthBack n => do let p ← it.nthBack ef n; pure (p.1, .item p.2)
  | .len => pure (it, .num it.pos.len)

end EfIter
end Vers
