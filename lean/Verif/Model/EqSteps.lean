import Verif.Model.RsIterSteps

/-!
# The comparisons of rank/select vectors with a step counter

The definitions of `Model/RsIter.lean` for `sparse_equals`, `full_equals` and `==` again. A step is the comparison of two
words, a bit access, a rank query (which takes constant time), the creation of the iterator, or one of the steps of `next`
that `Model/RsIterSteps.lean` counts. `C85_counter` proves that the results are those of `Model/RsIter.lean`.
-/

namespace Vers

variable [Profile]
open Counted

namespace RsVec

/-- The loop of `sparse_equals`, src/bit_vec/fast_rs_vec/mod.rs:447-453. -/
def sparseLoopC (rs other : RsVec) (zero : Bool) : Nat → SelIter → Nat → Counted Bool
  | 0, _, _ => free (.error .fuel)
  | fuel + 1, it, k => do
    let p ← SelIter.nextC rs zero it
    match p.2 with
    | none => pure true
    | some i => do
      let w ← tick (other.getUnchecked i)
      if (w == 0#64) != zero then pure false
      else do
        let r ← tick (other.rank zero i)
        if r ≠ k then pure false else sparseLoopC rs other zero fuel p.1 (k + 1)

/-- `sparse_equals`, src/bit_vec/fast_rs_vec/mod.rs:436-456. -/
def sparseEqualsC (zero : Bool) (rs other : RsVec) : Counted Bool :=
  if rs.len ≠ other.len then pure false
  else if rs.rank0 ≠ other.rank0 ∨ rs.rank1 ≠ other.rank1 then pure false
  else do
    let it ← tick (SelIter.new rs zero)
    sparseLoopC rs other zero ((if zero then rs.rank0 else rs.rank1) + 1) it 0

/-- `.any(|(a, b)| a != b)`, src/bit_vec/fast_rs_vec/mod.rs:478-481: stops at the first pair of different words. -/
def anyDiffC : List (Word × Word) → Counted Bool
  | [] => pure false
  | p :: l => do
    let d ← tick (pure (p.1 != p.2))
    if d then pure true else anyDiffC l

/-- `full_equals`, src/bit_vec/fast_rs_vec/mod.rs:469-495. -/
def fullEqualsC (rs other : RsVec) : Counted Bool :=
  if rs.len ≠ other.len then pure false
  else if rs.rank0 ≠ other.rank0 ∨ rs.rank1 ≠ other.rank1 then pure false
  else do
    let a ← free (prefixR rs.data (rs.len / 64))
    let b ← free (prefixR other.data (other.len / 64))
    let d ← anyDiffC (a.zip b)
    if d then pure false
    else if rs.len % 64 ≠ 0 then do
      let x ← tick (idx rs.data (rs.len / 64))
      let y ← free (idx other.data (rs.len / 64))
      let m : Word := (1#64 <<< (rs.len % 64)) - 1#64
      let m' : Word := (1#64 <<< (other.len % 64)) - 1#64
      pure (x &&& m == y &&& m')
    else pure true

/-- `==`, src/bit_vec/fast_rs_vec/mod.rs:525-535. -/
def eqC (rs other : RsVec) : Counted Bool :=
  if rs.len > 4000000 then
    if rs.rank1 > rs.rank0 then sparseEqualsC true rs other else sparseEqualsC false rs other
  else fullEqualsC rs other

end RsVec
end Vers
