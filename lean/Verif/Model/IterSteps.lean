import Verif.Model.EfSteps

/-! # Iteration from both ends, with a step counter

`next_back` of the select iterators and of the Elias-Fano iterators with the counter of `Model/RsIterSteps.lean`, and loops
that take elements from both ends in any order. -/

namespace Vers

variable [Profile]
open Counted

namespace SelIter

/-- The first half of `select_next_0_back` / `select_next_1_back`, src/bit_vec/fast_rs_vec/iter.rs:165-187 and
275-306. -/
def bwdLocateC (rs : RsVec) (zero : Bool) (it : SelIter) (rank : Nat) : Counted (Nat × Nat × Nat) := do
  let e ← tick (idx rs.selects (rank / 8192))
  let z ← tick (rs.superBefore zero it.lastSuperBack)
  if z < rank then do
    let r ← free (subR rank z)
    let zb ← tick (rs.blockBefore zero (it.lastSuperBack * 16) it.lastBlockBack)
    tick (useBlock rs zero it.lastSuperBack r it.lastBlockBack (decide (zb ≤ r)))
  else missSuperC rs zero (prj zero e) rank

/-- `select_next_0_back` / `select_next_1_back`, src/bit_vec/fast_rs_vec/iter.rs:158-200 and 268-324. -/
def nextBackC (rs : RsVec) (zero : Bool) (it : SelIter) : Counted (SelIter × Option Nat) :=
  match it.nextRankBack with
  | none => pure (it, none)
  | some rank =>
    if rank < it.nextRank then pure (it, none)
    else do
      let t ← bwdLocateC rs zero it rank
      let q ← tick (finish rs zero t.1 t.2.1 t.2.2)
      pure ({ it with nextRankBack := predOpt rank, lastSuperBack := t.1, lastBlockBack := q.2 }, some q.1)

/-- A call of `next` (for `true`) or of `next_back` (for `false`), src/bit_vec/fast_rs_vec/iter.rs:364-370 and 406-412. -/
def callC (rs : RsVec) (zero : Bool) (it : SelIter) : Bool → Counted (SelIter × Option Nat)
  | true => nextC rs zero it
  | false => nextBackC rs zero it

/-- A loop of such calls, and the results. Used to state the cost of an iteration; the loop is in the user's code,
src/bit_vec/fast_rs_vec/iter.rs:364-412 has the calls. -/
def bothC (rs : RsVec) (zero : Bool) : List Bool → SelIter → Counted (List (Option Nat))
  | [], _ => pure []
  | b :: ops, it => do
    let r ← callC rs zero it b
    let l ← bothC rs zero ops r.1
    pure (r.2 :: l)

end SelIter

namespace EfIter

/-- `next_back`, src/util/elias_fano_iter.rs:151-167. -/
def nextBackC (ef : EF) (it : EfIter) : Counted (EfIter × Option Word) := do
  let p ← it.up.nextBackC ef.upper false
  match p.2 with
  | some upper => do
    let b ← free (unwrapR it.pos.back)
    let c ← combineC ef upper b
    let x ← free (addW c ef.zero)
    pure (⟨{ it.pos with back := if b = 0 then none else some (b - 1) }, p.1⟩, some x)
  | none => pure (⟨it.pos, p.1⟩, none)

/-- A call of `next` (for `true`) or of `next_back` (for `false`), src/util/elias_fano_iter.rs:69-80 and 151-167. -/
def callC (ef : EF) (it : EfIter) : Bool → Counted (EfIter × Option Word)
  | true => it.nextC ef
  | false => it.nextBackC ef

/-- A loop of such calls, and the results. Used to state the cost of an iteration; the loop is in the user's code,
src/util/elias_fano_iter.rs:69-167 has the calls. -/
def bothC (ef : EF) : List Bool → EfIter → Counted (List (Option Word))
  | [], _ => pure []
  | b :: ops, it => do
    let r ← it.callC ef b
    let l ← bothC ef ops r.1
    pure (r.2 :: l)

end EfIter

end Vers
