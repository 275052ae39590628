import Verif.Model.EliasFanoIter
import Verif.Model.RsIterSteps

/-! # Random access to Elias-Fano vectors and their iterators, with a step counter

`getC` is `EF.get` with the select query replaced by the counted one; `nextC`, `lastC` and `minItemC` are the functions
of `Model/EliasFanoIter.lean` with the counted select iterator. A step is an access to the select blocks, super
blocks or blocks of the upper half (see `Model/RsIterSteps.lean`) or reading the lower half of the element. -/

namespace Vers

variable [Profile]
open Counted

namespace EF

/-- `get_unchecked`, src/elias_fano/mod.rs:184-190. -/
def getUncheckedC (ef : EF) (index : Nat) : Counted Word := do
  let s ← ef.upper.selectC false index
  let u ← free (subR s index)
  let u ← free (subR u 1)
  let lower ← tick (ef.lowAt index)
  free (addW ((BitVec.ofNat 64 u <<< ef.lowerLen) ||| lower) ef.zero)

/-- `get`, src/elias_fano/mod.rs:151-157. -/
def getC (ef : EF) (index : Nat) : Counted (Option Word) :=
  if index ≥ ef.len then pure none
  else do
    let x ← ef.getUncheckedC index
    pure (some x)

end EF

namespace SelIter

/-- `nth`, src/bit_vec/fast_rs_vec/iter.rs:396-402. -/
def nthC (rs : RsVec) (zero : Bool) (it : SelIter) (n : Nat) : Counted (SelIter × Option Nat) :=
  match it.advanceBy n with
  | (it, true) => nextC rs zero it
  | (it, false) => pure (it, none)

/-- `last`, src/bit_vec/fast_rs_vec/iter.rs:383-394. -/
def lastC (rs : RsVec) (zero : Bool) (it : SelIter) : Counted (Option Nat) :=
  if it.len = 0 then pure none
  else do
    let p ← it.nthC rs zero (it.len - 1)
    pure p.2

end SelIter

namespace EfIter

/-- The lower half at `index` is read, src/util/elias_fano_iter.rs:71-76 and 103-107. -/
def combineC (ef : EF) (upper index : Nat) : Counted Word := tick (combine ef upper index)

/-- `next`, src/util/elias_fano_iter.rs:69-80. -/
def nextC (ef : EF) (it : EfIter) : Counted (EfIter × Option Word) := do
  let p ← it.up.nextC ef.upper false
  match p.2 with
  | some upper => do
    let c ← combineC ef upper it.pos.index
    let x ← free (addW c ef.zero)
    pure (⟨{ it.pos with index := it.pos.index + 1 }, p.1⟩, some x)
  | none => pure (⟨it.pos, p.1⟩, none)

/-- `last`, src/util/elias_fano_iter.rs:98-111; also `max`, 132-138. -/
def lastC (ef : EF) (it : EfIter) : Counted (Option Word) :=
  if it.pos.isEmpty then pure none
  else do
    let o ← it.up.lastC ef.upper false
    let upper ← free (unwrapR o)
    let b ← free (unwrapR it.pos.back)
    let c ← combineC ef upper b
    pure (some c)

/-- `min`, src/util/elias_fano_iter.rs:122-128. -/
def minItemC (ef : EF) (it : EfIter) : Counted (Option Word) := do
  let p ← it.nextC ef
  pure p.2

end EfIter

end Vers
