import Verif.Model.BitSet
import Verif.Model.WaveletSteps

/-!
# The bit set iterators with a step counter

The definitions of `Model/BitSet.lean` again, with a counter: loading a chunk of 16 bits, reading a bit after the last
chunk, and reading an offset are one step each. `C86_counter` proves that the results are those of `Model/BitSet.lean`.
-/

namespace Vers

variable [Profile]
open Counted

namespace BsIter

/-- `new`, src/bit_vec/fast_rs_vec/bitset.rs:85-99. -/
def newC (rs : RsVec) (zero : Bool) : Counted BsIter :=
  if rs.len > 16 then do
    let w ← tick (rs.getBitsUnchecked 0 16)
    free (loadChunk zero ⟨0, List.replicate 16 0, 0, 0⟩ w)
  else pure ⟨0, List.replicate 16 0, 0, 0⟩

/-- `load_next_chunk`, src/bit_vec/fast_rs_vec/bitset.rs:117-128. -/
def loadNextC (rs : RsVec) (zero : Bool) : Nat → BsIter → Counted (BsIter × Bool)
  | 0, _ => free (.error .fuel)
  | fuel + 1, it =>
    if it.cursor = it.contentLen then
      if it.base + 16 ≥ rs.len then pure (it, false)
      else do
        let w ← tick (rs.getBitsUnchecked (it.base + 16) 16)
        let it ← free (loadChunk zero { it with base := it.base + 16 } w)
        loadNextC rs zero fuel it
    else pure (it, true)

/-- The loop that skips the bits of the other kind, src/bit_vec/fast_rs_vec/bitset.rs:141-149. -/
def skipTailC (rs : RsVec) (zero : Bool) : Nat → Nat → Counted Nat
  | 0, _ => free (.error .fuel)
  | fuel + 1, base =>
    if base < rs.len then do
      let w ← tick (rs.getUnchecked base)
      if w ≠ (if zero then 0#64 else 1#64) then skipTailC rs zero fuel (base + 1) else pure base
    else pure base

/-- The element under the cursor, src/bit_vec/fast_rs_vec/bitset.rs:160-162. -/
def emitC (it : BsIter) : Counted (BsIter × Option Nat) := do
  let o ← tick (idx it.offsets it.cursor)
  pure ({ it with cursor := it.cursor + 1 }, some (it.base + o))

/-- The element found by the scan after the last chunk, src/bit_vec/fast_rs_vec/bitset.rs:141-157. -/
def emitTailC (rs : RsVec) (zero : Bool) (it : BsIter) : Counted (BsIter × Option Nat) := do
  let b ← skipTailC rs zero (rs.len + 1) it.base
  if b < rs.len then pure ({ it with base := b + 1 }, some b)
  else pure ({ it with base := b }, none)

/-- `next`, src/bit_vec/fast_rs_vec/bitset.rs:134-163. -/
def nextC (rs : RsVec) (zero : Bool) (it : BsIter) : Counted (BsIter × Option Nat) :=
  if it.base ≥ rs.len then pure (it, none)
  else if it.cursor = it.contentLen then do
    let p ← loadNextC rs zero (rs.len + 1) it
    if p.2 then emitC p.1 else emitTailC rs zero p.1
  else emitC it

/-- A loop of `n` calls of `next`, src/bit_vec/fast_rs_vec/bitset.rs:134-163, and the results. -/
def callsC (rs : RsVec) (zero : Bool) : Nat → BsIter → Counted (List (Option Nat))
  | 0, _ => pure []
  | n + 1, it => do
    let r ← nextC rs zero it
    let l ← callsC rs zero n r.1
    pure (r.2 :: l)

/-- Creating the iterator and `n` calls of `next`, src/bit_vec/fast_rs_vec/bitset.rs:26-44 and 134-163. -/
def loopC (rs : RsVec) (zero : Bool) (n : Nat) : Counted (List (Option Nat)) := do
  let it ← newC rs zero
  callsC rs zero n it

end BsIter
end Vers
