import Verif.Model.RsVec
import Verif.SpecIter

/-!
# Model of src/util/general_iter.rs (element iterators of the vector types)

The macro `gen_vector_iter_impl` generates an owning and a borrowing iterator for `BitVec`, `RsVec` and
`WaveletMatrix`. The model is the state of the iterator next to the immutable vector, which is given by
its length, its `get` and its `get_unchecked` function (the parameters of the macro).
-/

namespace Vers

variable [Profile]

/-- `a.wrapping_sub(b)` on `usize` (values below 2^64), src/util/general_iter.rs:39 and 129. -/
def wrappingSub (a b : Nat) : Nat := (a + 2 ^ 64 - b) % 2 ^ 64

/-- `a.wrapping_add(b)` on `usize`, src/util/general_iter.rs:39 and 129. -/
def wrappingAdd (a b : Nat) : Nat := (a + b) % 2 ^ 64

/-- `Some(a) > b` on `Option<usize>`, where `None` is below every `Some`; src/util/general_iter.rs:35, 36, 74 and 137. -/
def someGt (a : Nat) : Option Nat → Bool
  | none => true
  | some b => decide (a > b)

/-- `o >= Some(n)` on `Option<usize>`, src/util/general_iter.rs:68. -/
def geSome (o : Option Nat) (n : Nat) : Bool :=
  match o with
  | none => false
  | some b => decide (b ≥ n)

/-- `NonZeroUsize::new(n).unwrap()`, src/util/general_iter.rs:37, 39, 60 and 66. -/
def nonZeroR (n : Nat) : R Nat := if n = 0 then .error .unwrap else .ok n

/-- The vector an iterator runs over: `len`, `get` and `get_unchecked`
(macro parameters, src/util/general_iter.rs:4). -/
structure VecOps (α : Type) where
  len : Nat
  get : Nat → R (Option α)
  getUnchecked : Nat → R α

/-- The mutable fields of the iterator, src/util/general_iter.rs:236-255. -/
structure GenIter where
  index : Nat
  back : Option Nat
deriving DecidableEq, Repr

namespace GenIter
variable {α : Type}

/-- `new`, src/util/general_iter.rs:7-22. -/
def new (v : VecOps α) : GenIter :=
  if v.len = 0 then ⟨0, none⟩ else ⟨0, some (v.len - 1)⟩

/-- `len`, src/util/general_iter.rs:127-130 (also `count` and `size_hint`, 91-104). -/
def len (it : GenIter) : Nat := wrappingAdd (wrappingSub (it.back.getD (2 ^ 64 - 1)) it.index) 1

/-- `is_iter_empty`, src/util/general_iter.rs:72-75. -/
def isEmpty (it : GenIter) : Bool := someGt it.index it.back

/-- The error branch of `advance_by`, src/util/general_iter.rs:36-40. -/
def advanceErr (it : GenIter) (n : Nat) : R (Except Nat GenIter) :=
  if someGt it.index it.back then do
    let e ← nonZeroR n
    pure (.error e)
  else do
    let d ← subR n (wrappingAdd (wrappingSub (it.back.getD (2 ^ 64 - 1)) it.index) 1)
    let e ← nonZeroR d
    pure (.error e)

/-- `advance_by`, src/util/general_iter.rs:30-45. `Err(n)` is `.error n`; the iterator is unchanged then. -/
def advanceBy (it : GenIter) (n : Nat) : R (Except Nat GenIter) :=
  if n = 0 then pure (.ok it)
  else do
    let e ← addU it.index n
    let e1 ← subR e 1
    if someGt e1 it.back then it.advanceErr n
    else pure (.ok { it with index := e })

/-- `advance_back_by`, src/util/general_iter.rs:53-70. -/
def advanceBackBy (it : GenIter) (n : Nat) : R (Except Nat GenIter) :=
  if n = 0 then pure (.ok it)
  else if it.isEmpty then do
    let e ← nonZeroR n
    pure (.error e)
  else do
    let b ← unwrapR it.back
    let d ← subR b it.index
    if d + 1 < n then do
      let e ← nonZeroR (n - (d + 1))
      pure (.error e)
    else pure (.ok { it with back := if geSome it.back n then it.back.map (· - n) else none })

/-- `next`, src/util/general_iter.rs:81-89. -/
def next (v : VecOps α) (it : GenIter) : R (GenIter × Option α) :=
  if it.isEmpty then pure (it, none)
  else do
    let o ← v.get it.index
    match o with
    | some x => pure ({ it with index := it.index + 1 }, some x)
    | none => pure (it, none)

/-- `next_back`, src/util/general_iter.rs:136-148. -/
def nextBack (v : VecOps α) (it : GenIter) : R (GenIter × Option α) :=
  if someGt it.index it.back then pure (it, none)
  else do
    let b ← unwrapR it.back
    let o ← v.get b
    match o with
    | some x => pure ({ it with back := if b = 0 then none else some (b - 1) }, some x)
    | none => pure (it, none)

/-- `last`, src/util/general_iter.rs:107-116. -/
def last (v : VecOps α) (it : GenIter) : R (Option α) :=
  if it.isEmpty then pure none
  else do
    let b ← unwrapR it.back
    let x ← v.getUnchecked b
    pure (some x)

/-- `nth`, src/util/general_iter.rs:120-123. -/
def nth (v : VecOps α) (it : GenIter) (n : Nat) : R (GenIter × Option α) := do
  let r ← it.advanceBy n
  match r with
  | .ok it' => it'.next v
  | .error _ => pure (it, none)

/-- `nth_back`, src/util/general_iter.rs:150-153. -/
def nthBack (v : VecOps α) (it : GenIter) (n : Nat) : R (GenIter × Option α) := do
  let r ← it.advanceBackBy n
  match r with
  | .ok it' => it'.nextBack v
  | .error _ => pure (it, none)

/-- One call of the iterator traits, src/util/general_iter.rs:78-153. -/
def step (v : VecOps α) (it : GenIter) : Spec.IterOp → R (GenIter × Spec.IterOut α)
  | .next => do let p ← it.next v; pure (p.1, .item p.2)
  | .nextBack => do let p ← it.nextBack v; pure (p.1, .item p.2)
  | .nth n => do let p ← it.nth v n; pure (p.1, .item p.2)
  | .nthBack n => do let p ← it.nthBack v n; pure (p.1, .item p.2)
  | .len => pure (it, .num it.len)

end GenIter

/-- `impl_vector_iterator! { BitVec, BitVecIter, BitVecRefIter }`, src/bit_vec/mod.rs:1542. -/
def BV.vecOps (v : BV) : VecOps Word := ⟨v.len, v.get, v.getUnchecked⟩

/-- `impl_vector_iterator! { RsVec, RsVecIter, RsVecRefIter }`, src/bit_vec/fast_rs_vec/mod.rs:508. -/
def RsVec.vecOps (rs : RsVec) : VecOps Word := ⟨rs.len, rs.get, rs.getUnchecked⟩

end Vers
