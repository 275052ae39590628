import Verif.Model.RsIter
import Verif.Model.WaveletSteps

/-!
# The select queries and iterators with a step counter

The definitions of `Model/RsVec.lean` and `Model/RsIter.lean` on the path of `select0/1` and `next`, with a counter for the
accesses to the select blocks, super blocks and blocks. What takes constant time (the test of the cached block, the search among the 16
blocks of a super block and the 8 words of a block) counts as one step. `C77_counter` and `C75_counter` prove that the
results are those of `Model/RsVec.lean` and `Model/RsIter.lean`.
-/

namespace Vers

variable [Profile]
open Counted

namespace RsVec

/-- The binary search of `search_super_block0/1`, src/bit_vec/fast_rs_vec/select.rs:168-176 and 391-399. -/
def searchSuperBinC (rs : RsVec) (zero : Bool) (rank : Nat) : Nat → Nat → Nat → Counted Nat
  | 0, _, _ => free (.error .fuel)
  | fuel + 1, sb, upper => do
    let d ← free (subR upper sb)
    if d > 8 then do
      let z ← tick (rs.searchSuperKey zero (sb + d / 2))
      if z ≤ rank then searchSuperBinC rs zero rank fuel (sb + d / 2) upper
      else searchSuperBinC rs zero rank fuel sb (sb + d / 2)
    else pure sb

/-- The linear search of `search_super_block0/1`, src/bit_vec/fast_rs_vec/select.rs:179-183 and 401-406. -/
def searchSuperLinC (rs : RsVec) (zero : Bool) (rank : Nat) : Nat → Nat → Counted Nat
  | 0, _ => free (.error .fuel)
  | fuel + 1, sb =>
    if rs.supers.length > sb + 1 then do
      let z ← tick (rs.superBefore zero (sb + 1))
      if z ≤ rank then searchSuperLinC rs zero rank fuel (sb + 1) else pure sb
    else pure sb

/-- `search_super_block0/1`, src/bit_vec/fast_rs_vec/select.rs:165-186 and 387-409. -/
def searchSuperC (rs : RsVec) (zero : Bool) (sb rank : Nat) : Counted Nat := do
  let e ← tick (idx rs.selects (rank / 8192 + 1))
  let sb ← rs.searchSuperBinC zero rank (rs.supers.length + 1) sb (prj zero e)
  rs.searchSuperLinC zero rank (rs.supers.length + 1) sb

/-- The hint and super block search of `select0/1`, src/bit_vec/fast_rs_vec/select.rs:25-31 and 200-208. -/
def selectSuperC (rs : RsVec) (zero : Bool) (rank : Nat) : Counted Nat := do
  let e ← tick (idx rs.selects (rank / 8192))
  if rs.supers.length > prj zero e + 1 then do
    let z ← tick (rs.superBefore zero (prj zero e + 1))
    if z ≤ rank then rs.searchSuperC zero (prj zero e) rank else pure (prj zero e)
  else pure (prj zero e)

/-- `select0` / `select1`, src/bit_vec/fast_rs_vec/select.rs:20-41 and 195-222. -/
def selectC (rs : RsVec) (zero : Bool) (rank : Nat) : Counted Nat :=
  if rank ≥ (if zero then rs.rank0 else rs.rank1) then pure rs.len
  else do
    let sb ← rs.selectSuperC zero rank
    let z ← tick (rs.superBefore zero sb)
    let rank ← free (subR rank z)
    let block ← tick (rs.searchBlock zero rank (sb * 16))
    let z ← tick (rs.blockBefore zero (sb * 16) block)
    let rank ← free (subR rank z)
    tick (rs.searchWord zero rank block)

end RsVec

namespace SelIter

/-- The `else` branch of `select_next_0/1`, src/bit_vec/fast_rs_vec/iter.rs:138-142 and 241-246. -/
def missSuperC (rs : RsVec) (zero : Bool) (hint rank : Nat) : Counted (Nat × Nat × Nat) := do
  let s ← rs.searchSuperC zero hint rank
  let z ← tick (rs.superBefore zero s)
  let r ← free (subR rank z)
  pure (s, r, 0)

/-- The first half of `select_next_0/1`, src/bit_vec/fast_rs_vec/iter.rs:116-142 and 211-246. -/
def fwdLocateC (rs : RsVec) (zero : Bool) (it : SelIter) : Counted (Nat × Nat × Nat) := do
  let e ← tick (idx rs.selects (it.nextRank / 8192))
  let hit ← tick (fwdSuperHit rs zero it)
  if hit then do
    let z ← tick (rs.superBefore zero it.lastSuper)
    let r ← free (subR it.nextRank z)
    let bh ← tick (fwdBlockHit rs zero it r)
    tick (useBlock rs zero it.lastSuper r it.lastBlock bh)
  else missSuperC rs zero (prj zero e) it.nextRank

/-- `select_next_0` / `select_next_1`, src/bit_vec/fast_rs_vec/iter.rs:109-155 and 204-264. -/
def nextC (rs : RsVec) (zero : Bool) (it : SelIter) : Counted (SelIter × Option Nat) :=
  match it.nextRankBack with
  | none => pure (it, none)
  | some back =>
    if it.nextRank ≥ (if zero then rs.rank0 else rs.rank1) ∨ it.nextRank > back then pure (it, none)
    else do
      let t ← fwdLocateC rs zero it
      let q ← tick (finish rs zero t.1 t.2.1 t.2.2)
      pure ({ it with nextRank := it.nextRank + 1, lastSuper := t.1, lastBlock := q.2 }, some q.1)

/-- A loop of `n` calls of `next`, src/bit_vec/fast_rs_vec/iter.rs:364-370, and the results. -/
def callsC (rs : RsVec) (zero : Bool) : Nat → SelIter → Counted (List (Option Nat))
  | 0, _ => pure []
  | n + 1, it => do
    let r ← nextC rs zero it
    let l ← callsC rs zero n r.1
    pure (r.2 :: l)

end SelIter
end Vers
