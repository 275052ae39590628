import Verif.Model.RsVec

/-!
# Model of src/bit_vec/fast_rs_vec/bitset.rs: the AVX-512 bit set iterators (feature `simd`)

`_mm512_mask_compressstoreu_epi32` stores the lanes selected by the mask one after another to the beginning of
the destination and leaves the rest of it unchanged. `VECTOR_SIZE` is 16.
-/

namespace Vers

variable [Profile]

/-- `struct BitSetIter`, src/bit_vec/fast_rs_vec/bitset.rs:76-82. -/
structure BsIter where
  base : Nat
  offsets : List Nat
  contentLen : Nat
  cursor : Nat
deriving DecidableEq, Repr

namespace BsIter

/-- The offsets selected by the mask, complemented if `ZERO`; src/bit_vec/fast_rs_vec/bitset.rs:105-112. -/
def selected (zero : Bool) (data : Word) : List Nat :=
  (List.range 16).filter (fun i => data.getLsbD i != zero)

/-- `load_chunk`, src/bit_vec/fast_rs_vec/bitset.rs:101-115; `data as u16` are the lower 16 bits. The store through the
raw pointer is not checked. -/
def loadChunk (zero : Bool) (it : BsIter) (data : Word) : R BsIter :=
  if it.offsets.length < (selected zero data).length then .error .ub
  else pure { it with
    offsets := selected zero data ++ it.offsets.drop (selected zero data).length
    contentLen := (selected zero data).length
    cursor := 0 }

/-- `new`, src/bit_vec/fast_rs_vec/bitset.rs:85-99 (`bit_set_iter0`/`bit_set_iter1`, lines 26-44). -/
def new (rs : RsVec) (zero : Bool) : R BsIter :=
  if rs.len > 16 then do
    let w ← rs.getBitsUnchecked 0 16
    loadChunk zero ⟨0, List.replicate 16 0, 0, 0⟩ w
  else pure ⟨0, List.replicate 16 0, 0, 0⟩

/-- `load_next_chunk`, src/bit_vec/fast_rs_vec/bitset.rs:117-128; `true` is `Some(())`. -/
def loadNext (rs : RsVec) (zero : Bool) : Nat → BsIter → R (BsIter × Bool)
  | 0, _ => .error .fuel
  | fuel + 1, it =>
    if it.cursor = it.contentLen then
      if it.base + 16 ≥ rs.len then pure (it, false)
      else do
        let w ← rs.getBitsUnchecked (it.base + 16) 16
        let it ← loadChunk zero { it with base := it.base + 16 } w
        loadNext rs zero fuel it
    else pure (it, true)

/-- The loop that skips the bits of the other kind, src/bit_vec/fast_rs_vec/bitset.rs:141-149. -/
def skipTail (rs : RsVec) (zero : Bool) : Nat → Nat → R Nat
  | 0, _ => .error .fuel
  | fuel + 1, base =>
    if base < rs.len then do
      let w ← rs.getUnchecked base
      if w ≠ (if zero then 0#64 else 1#64) then skipTail rs zero fuel (base + 1) else pure base
    else pure base

/-- The element under the cursor, src/bit_vec/fast_rs_vec/bitset.rs:160-162. -/
def emit (it : BsIter) : R (BsIter × Option Nat) := do
  let o ← idx it.offsets it.cursor
  pure ({ it with cursor := it.cursor + 1 }, some (it.base + o))

/-- The element found by the scan after the last chunk, src/bit_vec/fast_rs_vec/bitset.rs:141-157. -/
def emitTail (rs : RsVec) (zero : Bool) (it : BsIter) : R (BsIter × Option Nat) := do
  let b ← skipTail rs zero (rs.len + 1) it.base
  if b < rs.len then pure ({ it with base := b + 1 }, some b)
  else pure ({ it with base := b }, none)

/-- `next`, src/bit_vec/fast_rs_vec/bitset.rs:134-163. -/
def next (rs : RsVec) (zero : Bool) (it : BsIter) : R (BsIter × Option Nat) :=
  if it.base ≥ rs.len then pure (it, none)
  else if it.cursor = it.contentLen then do
    let p ← loadNext rs zero (rs.len + 1) it
    if p.2 then emit p.1 else emitTail rs zero p.1
  else emit it

end BsIter
end Vers
