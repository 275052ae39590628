import Verif.Model.RsVec
import Verif.SpecIter

/-!
# Model of src/bit_vec/fast_rs_vec/iter.rs (select iterators) and of the equality tests

`SelectIter` (borrowing) and `SelectIntoIter` (owning) are generated by the same macro
`gen_iter_impl`; the model is one state type next to an immutable vector. As in `Model/RsVec.lean`,
the functions for 0-bits and 1-bits are merged. The argument `simd` tells whether the crate is compiled with
the `simd` feature and AVX-512; it selects the variant of the block search.
-/

namespace Vers

variable [Profile]

/-- The mutable fields of `SelectIter` / `SelectIntoIter`, src/bit_vec/fast_rs_vec/iter.rs:462-479 and 515-532. -/
structure SelIter where
  nextRank : Nat
  nextRankBack : Option Nat
  lastSuper : Nat
  lastSuperBack : Nat
  lastBlock : Nat
  lastBlockBack : Nat
deriving DecidableEq, Repr

namespace SelIter

/-- `x - 1` for positive `x`, else `None`; the closure in src/bit_vec/fast_rs_vec/iter.rs:100, 198 and 322. -/
def predOpt (x : Nat) : Option Nat := if x > 0 then some (x - 1) else none

/-- `new`, src/bit_vec/fast_rs_vec/iter.rs:79-106. -/
def new (rs : RsVec) (zero : Bool) : R SelIter :=
  if rs.len = 0 then pure ⟨0, none, 0, 0, 0, 0⟩
  else do
    let s ← subR rs.supers.length 1
    let b ← subR rs.blocks.length 1
    pure ⟨0, predOpt (if zero then rs.rank0 else rs.rank1), 0, s, 0, b⟩

/-- The test whether the cached super block still contains the rank,
src/bit_vec/fast_rs_vec/iter.rs:119-120 and 215-218. -/
def fwdSuperHit (rs : RsVec) (zero : Bool) (it : SelIter) : R Bool :=
  if rs.supers.length > it.lastSuper + 1 then do
    let z ← rs.superBefore zero (it.lastSuper + 1)
    pure (decide (z > it.nextRank))
  else pure false

/-- The test whether the cached block still contains the rank,
src/bit_vec/fast_rs_vec/iter.rs:130-132 and 229-233. -/
def fwdBlockHit (rs : RsVec) (zero : Bool) (it : SelIter) (rank : Nat) : R Bool :=
  if it.lastBlock % 16 = 15 then pure true
  else if rs.blocks.length > it.lastBlock + 1 then do
    let z ← rs.blockBefore zero (it.lastSuper * 16) (it.lastBlock + 1)
    pure (decide (z > rank))
  else pure false

/-- Super block, remaining rank and block (0 if not known), shared by
src/bit_vec/fast_rs_vec/iter.rs:134-137, 178-182, 235-240 and 294-300: the cached block is used if
`hit`, with the rank reduced by the bits before it. -/
def useBlock (rs : RsVec) (zero : Bool) (s rank block : Nat) (hit : Bool) : R (Nat × Nat × Nat) :=
  if hit then do
    let z ← rs.blockBefore zero (s * 16) block
    let r ← subR rank z
    pure (s, r, block)
  else pure (s, rank, 0)

/-- The `else` branch: a super block search starting at the select block's hint,
src/bit_vec/fast_rs_vec/iter.rs:138-142, 183-187, 241-246 and 301-306. -/
def missSuper (rs : RsVec) (zero : Bool) (hint rank : Nat) : R (Nat × Nat × Nat) := do
  let s ← rs.searchSuper zero hint rank
  let z ← rs.superBefore zero s
  let r ← subR rank z
  pure (s, r, 0)

/-- The first half of `select_next_0/1`, src/bit_vec/fast_rs_vec/iter.rs:116-142 and 211-246. -/
def fwdLocate (rs : RsVec) (zero : Bool) (it : SelIter) : R (Nat × Nat × Nat) := do
  let e ← idx rs.selects (it.nextRank / 8192)
  let hit ← fwdSuperHit rs zero it
  if hit then do
    let z ← rs.superBefore zero it.lastSuper
    let r ← subR it.nextRank z
    let bh ← fwdBlockHit rs zero it r
    useBlock rs zero it.lastSuper r it.lastBlock bh
  else missSuper rs zero (prj zero e) it.nextRank

/-- `search_block0/1`, in the variant selected at compile time, src/bit_vec/fast_rs_vec/select.rs:59-83, 96-98,
241-294 and 308-315. -/
def searchBlockV (rs : RsVec) (zero : Bool) (rank base : Nat) (simd : Bool) : R Nat :=
  if simd then rs.searchBlockSimd zero rank base else rs.searchBlock zero rank base

/-- The block search unless the block is known, and the word search, shared by
src/bit_vec/fast_rs_vec/iter.rs:145-154, 190-199, 249-263 and 309-323. Returns the position and the new
value of the cached block (which equals the block in both cases). -/
def finish (rs : RsVec) (zero : Bool) (s rank block : Nat) (simd : Bool := false) : R (Nat × Nat) :=
  if block = 0 then do
    let b ← searchBlockV rs zero rank (s * 16) simd
    let z ← rs.blockBefore zero (s * 16) b
    let r ← subR rank z
    let p ← rs.searchWord zero r b
    pure (p, b)
  else do
    let p ← rs.searchWord zero rank block
    pure (p, block)

/-- `select_next_0` / `select_next_1`, src/bit_vec/fast_rs_vec/iter.rs:109-155 and 204-264. The order in
which the counter is incremented and the word is searched does not matter. -/
def next (rs : RsVec) (zero : Bool) (it : SelIter) (simd : Bool := false) : R (SelIter × Option Nat) :=
  match it.nextRankBack with
  | none => pure (it, none)
  | some back =>
    if it.nextRank ≥ (if zero then rs.rank0 else rs.rank1) ∨ it.nextRank > back then pure (it, none)
    else do
      let t ← fwdLocate rs zero it
      let q ← finish rs zero t.1 t.2.1 t.2.2 simd
      pure ({ it with nextRank := it.nextRank + 1, lastSuper := t.1, lastBlock := q.2 }, some q.1)

/-- The first half of `select_next_0_back` / `select_next_1_back`, src/bit_vec/fast_rs_vec/iter.rs:165-187 and
275-306. -/
def bwdLocate (rs : RsVec) (zero : Bool) (it : SelIter) (rank : Nat) : R (Nat × Nat × Nat) := do
  let e ← idx rs.selects (rank / 8192)
  let z ← rs.superBefore zero it.lastSuperBack
  if z < rank then do
    let r ← subR rank z
    let zb ← rs.blockBefore zero (it.lastSuperBack * 16) it.lastBlockBack
    useBlock rs zero it.lastSuperBack r it.lastBlockBack (decide (zb ≤ r))
  else missSuper rs zero (prj zero e) rank

/-- `select_next_0_back` / `select_next_1_back`, src/bit_vec/fast_rs_vec/iter.rs:158-200 and 268-324. -/
def nextBack (rs : RsVec) (zero : Bool) (it : SelIter) (simd : Bool := false) : R (SelIter × Option Nat) :=
  match it.nextRankBack with
  | none => pure (it, none)
  | some rank =>
    if rank < it.nextRank then pure (it, none)
    else do
      let t ← bwdLocate rs zero it rank
      let q ← finish rs zero t.1 t.2.1 t.2.2 simd
      pure ({ it with nextRankBack := predOpt rank, lastSuperBack := t.1, lastBlockBack := q.2 }, some q.1)

/-- `len`, src/bit_vec/fast_rs_vec/iter.rs:426-428. The addition is exact; it would wrap for `usize::MAX`, which is
reached only in release builds by the calls described in `C19_nth_back_release_defect`. -/
def len (it : SelIter) : Nat :=
  (match it.nextRankBack with
    | some x => x + 1
    | none => 0) - it.nextRank

/-- `advance_by`, src/bit_vec/fast_rs_vec/iter.rs:332-341; the Boolean tells whether the result is `Ok`. -/
def advanceBy (it : SelIter) (n : Nat) : SelIter × Bool :=
  if it.len ≥ n then ({ it with nextRank := it.nextRank + n }, true)
  else ({ it with nextRank := it.nextRank + it.len }, false)

/-- `Option::map(|x| x - n)` with the underflow check, src/bit_vec/fast_rs_vec/iter.rs:351 and 355. -/
def subBack (o : Option Nat) (n : Nat) : R (Option Nat) :=
  match o with
  | none => pure none
  | some x => do
    let y ← subR x n
    pure (some y)

/-- `advance_back_by`, src/bit_vec/fast_rs_vec/iter.rs:349-358. -/
def advanceBackBy (it : SelIter) (n : Nat) : R (SelIter × Bool) :=
  if it.len ≥ n then do
    let b ← subBack it.nextRankBack n
    pure ({ it with nextRankBack := b }, true)
  else do
    let b ← subBack it.nextRankBack it.len
    pure ({ it with nextRankBack := b }, false)

/-- `nth`, src/bit_vec/fast_rs_vec/iter.rs:396-402. -/
def nth (rs : RsVec) (zero : Bool) (it : SelIter) (n : Nat) (simd : Bool := false) :
    R (SelIter × Option Nat) :=
  match it.advanceBy n with
  | (it, true) => next rs zero it simd
  | (it, false) => pure (it, none)

/-- `nth_back`, src/bit_vec/fast_rs_vec/iter.rs:414-420. -/
def nthBack (rs : RsVec) (zero : Bool) (it : SelIter) (n : Nat) (simd : Bool := false) :
    R (SelIter × Option Nat) := do
  let p ← it.advanceBackBy n
  if p.2 then nextBack rs zero p.1 simd else pure (p.1, none)

/-- `last`, src/bit_vec/fast_rs_vec/iter.rs:383-394 (consumes the iterator). -/
def last (rs : RsVec) (zero : Bool) (it : SelIter) (simd : Bool := false) : R (Option Nat) :=
  if it.len = 0 then pure none
  else do
    let p ← it.nth rs zero (it.len - 1) simd
    pure p.2

/-- One call of the `Iterator` / `DoubleEndedIterator` / `ExactSizeIterator` interface
(src/bit_vec/fast_rs_vec/iter.rs:361-429). -/
def step (rs : RsVec) (zero : Bool) (it : SelIter) : Spec.IterOp → R (SelIter × Spec.IterOut Nat)
  | .next => do
    let p ← it.next rs zero
    pure (p.1, .item p.2)
  | .nextBack => do
    let p ← it.nextBack rs zero
    pure (p.1, .item p.2)
  | .nth n => do
    let p ← it.nth rs zero n
    pure (p.1, .item p.2)
  | .nthBack n => do
    let p ← it.nthBack rs zero n
    pure (p.1, .item p.2)
  | .len => pure (it, .num it.len)

/-- The same as compiled with the `simd` feature and AVX-512 (src/bit_vec/fast_rs_vec/iter.rs:361-429). -/
def stepSimd (rs : RsVec) (zero : Bool) (it : SelIter) : Spec.IterOp → R (SelIter × Spec.IterOut Nat)
  | .next => do
    let p ← it.next rs zero true
    pure (p.1, .item p.2)
  | .nextBack => do
    let p ← it.nextBack rs zero true
    pure (p.1, .item p.2)
  | .nth n => do
    let p ← it.nth rs zero n true
    pure (p.1, .item p.2)
  | .nthBack n => do
    let p ← it.nthBack rs zero n true
    pure (p.1, .item p.2)
  | .len => pure (it, .num it.len)

end SelIter

namespace RsVec

/-- The loop of `sparse_equals`, src/bit_vec/fast_rs_vec/mod.rs:447-453. -/
def sparseLoop (rs other : RsVec) (zero simd : Bool) : Nat → SelIter → Nat → R Bool
  | 0, _, _ => .error .fuel
  | fuel + 1, it, k => do
    let p ← it.next rs zero simd
    match p.2 with
    | none => pure true
    | some i => do
      let w ← other.getUnchecked i
      if (w == 0#64) != zero then pure false
      else do
        let r ← other.rank zero i
        if r ≠ k then pure false else sparseLoop rs other zero simd fuel p.1 (k + 1)

/-- `sparse_equals`, src/bit_vec/fast_rs_vec/mod.rs:436-456. -/
def sparseEquals (zero : Bool) (rs other : RsVec) (simd : Bool := false) : R Bool :=
  if rs.len ≠ other.len then pure false
  else if rs.rank0 ≠ other.rank0 ∨ rs.rank1 ≠ other.rank1 then pure false
  else do
    let it ← SelIter.new rs zero
    sparseLoop rs other zero simd ((if zero then rs.rank0 else rs.rank1) + 1) it 0

/-- `full_equals`, src/bit_vec/fast_rs_vec/mod.rs:469-495. -/
def fullEquals (rs other : RsVec) : R Bool :=
  if rs.len ≠ other.len then pure false
  else if rs.rank0 ≠ other.rank0 ∨ rs.rank1 ≠ other.rank1 then pure false
  else do
    let a ← prefixR rs.data (rs.len / 64)
    let b ← prefixR other.data (other.len / 64)
    if (a.zip b).any (fun p => p.1 != p.2) then pure false
    else if rs.len % 64 ≠ 0 then do
      let x ← idx rs.data (rs.len / 64)
      let y ← idx other.data (rs.len / 64)
      let m : Word := (1#64 <<< (rs.len % 64)) - 1#64
      let m' : Word := (1#64 <<< (other.len % 64)) - 1#64
      pure (x &&& m == y &&& m')
    else pure true

/-- `PartialEq::eq`, src/bit_vec/fast_rs_vec/mod.rs:525-535. -/
def eq (rs other : RsVec) (simd : Bool := false) : R Bool :=
  if rs.len > 4000000 then
    if rs.rank1 > rs.rank0 then sparseEquals true rs other simd else sparseEquals false rs other simd
  else fullEquals rs other

end RsVec
end Vers
